import Verif.Model.Examples
import Verif.Model.G2o

/-!
# The example programs from the command line on

`main` of `examples/ChordalInitializationExample.cpp`, `examples/SingleRobotExample.cpp`,
`examples/SingleRobotGNCExample.cpp` and `examples/MultiRobotExample.cpp`: arguments, reading of the file, and the
programs of `Model/Examples` and `Model/Demo`.  The arguments are a list of strings, the first of which is the name
of the program.
-/

namespace Dpgo.Example

open Res Text

/-- The file system: contents of the file with a given name, `none` if it cannot be opened
(src/DPGO_utils.cpp:132-133). -/
abbrev Files := Str → Option Str

/-- How `main` ends (unless it crashes): a message about the arguments and `exit(1)`, or what the program
computes and `exit(0)` (examples/ChordalInitializationExample.cpp:28-32, 50). -/
inductive Ending (α : Type) where
  | refused
  | done (a : α)

/-- `atoi(argv[1])` (examples/MultiRobotExample.cpp:35): 0 without digits; a value outside the range of `int` is
undefined. -/
def atoi (s : Str) : Res Int :=
  let (neg, s) := sign (s.dropWhile isSpace)
  let n := natOf (s.span Char.isDigit).1
  let v : Int := if neg then -(n : Int) else n
  if -2 ^ 31 ≤ v ∧ v < 2 ^ 31 then ok v else ub

noncomputable section

/-- `main` of the chordal example (examples/ChordalInitializationExample.cpp:21-51). -/
def mainChordal (o : AgentOracles) (files : Files) : List Str → Res (Ending ℝ)
  | [_, name] => do
    let (dataset, _) ← G2o.readG2o (files name)
    let f ← chordalProgram o dataset
    ok (.done f)
  | _ => ok .refused

/-- `main` of the single-robot example (examples/SingleRobotExample.cpp:27-107). -/
def mainSingle (o : AgentOracles) (files : Files) : List Str → Res (Ending ℝ)
  | _ :: name :: _ => do
    let (dataset, _) ← G2o.readG2o (files name)
    let f ← singleProgram o dataset
    ok (.done f)
  | _ => ok .refused

/-- `main` of the robust example (examples/SingleRobotGNCExample.cpp:14-43). -/
def mainGnc (o : SolverOracles) (files : Files) : List Str → Res (Ending (PArr ℝ × List (Meas ℝ)))
  | _ :: name :: _ => do
    let (dataset, _) ← G2o.readG2o (files name)
    let r ← gncProgram o dataset
    ok (.done r)
  | _ => ok .refused

/-- `main` of the multi-robot example (examples/MultiRobotExample.cpp:20-263). -/
def mainMulti (o : AgentOracles) (oc : OptOracles) (q : Options) (junk : Nat → Nat → ℝ) (files : Files) :
    List Str → Res (Ending LoopState)
  | _ :: robots :: name :: _ => do
    let numRobots ← atoi robots
    if numRobots ≤ 0 then ok .refused
    else do
      let (dataset, numPoses) ← G2o.readG2o (files name)
      let s ← demo o oc q junk numRobots numPoses dataset
      ok (.done s)
  | _ => ok .refused

end

end Dpgo.Example
