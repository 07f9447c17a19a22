import Verif.Spec.PoseGraph

/-!
# What of a pose graph stays frozen: everything but weights, activity and caches
-/

namespace Dpgo.Spec

variable {K : Type} [Field K]

/-- The measurement without its mutable fields. -/
def strip (m : Meas K) : Meas K := { m with weight := 0, fixedWeight := false }

/-- Same robot, same sizes, same poses, same neighbours, same measurements up to weights. -/
structure SameTopology (g g' : PoseGraph K) : Prop where
  id : g'.id = g.id
  r : g'.r = g.r
  d : g'.d = g.d
  n : g'.n = g.n
  odometry : g'.odometry.map strip = g.odometry.map strip
  privateLcs : g'.privateLcs.map strip = g.privateLcs.map strip
  sharedLcs : g'.sharedLcs.map strip = g.sharedLcs.map strip
  localShared : g'.localShared = g.localShared
  nbrShared : g'.nbrShared = g.nbrShared
  nbrRobots : g'.nbrRobots = g.nbrRobots

end Dpgo.Spec
