/-!
# Outcomes of C++ calls

`Res α` is the outcome of a call: it may return normally, terminate the process through a
glog `CHECK` / `LOG(FATAL)`, let a C++ exception escape, run into undefined behaviour, or produce
a non-finite floating-point number (after which the real-number model says nothing).
-/

namespace Dpgo

/-- Outcome of a C++ call. -/
inductive Res (α : Type u) where
  /-- normal return -/
  | ok (a : α)
  /-- glog `CHECK` failure / `LOG(FATAL)` / `exit`: the process terminates -/
  | abort
  /-- an exception escapes the call -/
  | throws
  /-- undefined behaviour -/
  | ub
  /-- an infinite or NaN number was produced -/
  | nonfinite
  deriving Repr, DecidableEq

namespace Res

/-- Sequencing: anything but `ok` stops. -/
def bind {α : Type u} {β : Type v} (x : Res α) (f : α → Res β) : Res β :=
  match x with
  | ok a => f a
  | abort => abort
  | throws => throws
  | ub => ub
  | nonfinite => nonfinite

instance : Monad Res where
  pure := Res.ok
  bind := Res.bind

@[simp] theorem pure_eq {α : Type u} (a : α) : (pure a : Res α) = ok a := rfl
@[simp] theorem ok_bind {α β : Type u} (a : α) (f : α → Res β) : (ok a >>= f) = f a := rfl
@[simp] theorem abort_bind {α β : Type u} (f : α → Res β) : ((abort : Res α) >>= f) = abort := rfl
@[simp] theorem throws_bind {α β : Type u} (f : α → Res β) : ((throws : Res α) >>= f) = throws := rfl
@[simp] theorem ub_bind {α β : Type u} (f : α → Res β) : ((ub : Res α) >>= f) = ub := rfl
@[simp] theorem nonfinite_bind {α β : Type u} (f : α → Res β) :
    ((nonfinite : Res α) >>= f) = nonfinite := rfl

theorem bind_eq_ok {α β : Type u} {x : Res α} {f : α → Res β} {b : β} :
    (x >>= f) = ok b ↔ ∃ a, x = ok a ∧ f a = ok b := by
  cases x <;> simp

instance : LawfulMonad Res := LawfulMonad.mk'
  (id_map := by intro α x; cases x <;> rfl)
  (pure_bind := by intros; rfl)
  (bind_assoc := by intro α β γ x f g; cases x <;> rfl)

/-- `CHECK(b)` of glog: terminates the process when the condition is false. -/
def check (b : Bool) : Res Unit := if b then ok () else abort

@[simp] theorem check_true : check true = ok () := rfl
@[simp] theorem check_false : check false = abort := rfl

theorem check_eq_ok {b : Bool} {u : Unit} : check b = ok u ↔ b = true := by
  cases b <;> simp [check]

/-- Precondition whose violation is undefined behaviour (out-of-range access, ...). -/
def require (b : Bool) : Res Unit := if b then ok () else ub

@[simp] theorem require_true : require true = ok () := rfl
@[simp] theorem require_false : require false = ub := rfl

theorem require_eq_ok {b : Bool} {u : Unit} : require b = ok u ↔ b = true := by
  cases b <;> simp [require]

/-- Left fold with early stop: a `for` loop whose body may fail. -/
def foldl {α : Type u} {β : Type v} (f : β → α → Res β) : β → List α → Res β
  | b, [] => ok b
  | b, a :: l => bind (f b a) fun b' => foldl f b' l

@[simp] theorem foldl_nil {α : Type u} {β : Type v} (f : β → α → Res β) (b : β) :
    foldl f b [] = ok b := rfl
theorem foldl_cons {α : Type u} {β : Type v} (f : β → α → Res β) (b : β) (a : α) (l : List α) :
    foldl f b (a :: l) = bind (f b a) fun b' => foldl f b' l := rfl

@[simp] theorem ok_bind' {α : Type u} {β : Type v} (a : α) (f : α → Res β) :
    Res.bind (ok a) f = f a := rfl

theorem bind_eq_ok' {α : Type u} {β : Type v} {x : Res α} {f : α → Res β} {b : β} :
    Res.bind x f = ok b ↔ ∃ a, x = ok a ∧ f a = ok b := by
  cases x <;> simp [Res.bind]

theorem foldl_append {α : Type u} {β : Type v} (f : β → α → Res β) (b : β) (l₁ l₂ : List α) :
    foldl f b (l₁ ++ l₂) = bind (foldl f b l₁) fun b' => foldl f b' l₂ := by
  induction l₁ generalizing b with
  | nil => rfl
  | cons a l ih =>
    simp only [List.cons_append, foldl_cons]
    cases f b a <;> simp [Res.bind, ih]

/-- Invariant rule for loops. -/
theorem foldl_induction {α : Type u} {β : Type v} {f : β → α → Res β} (P : β → Prop)
    (step : ∀ b a b', P b → f b a = ok b' → P b') :
    ∀ (l : List α) (b b' : β), P b → foldl f b l = ok b' → P b' := by
  intro l
  induction l with
  | nil => intro b b' h e; simp at e; exact e ▸ h
  | cons a l ih =>
    intro b b' h e
    rw [foldl_cons, bind_eq_ok'] at e
    obtain ⟨c, hc, e⟩ := e
    exact ih c b' (step _ _ _ h hc) e

/-- The outcome is a normal return. -/
def isOk {α : Type u} : Res α → Bool
  | ok _ => true
  | _ => false

end Res
end Dpgo
