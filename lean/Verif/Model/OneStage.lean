import Verif.Model.AgentInit

/-! # Alignment with a neighbour's frame in one stage -/

namespace Dpgo.Agent

open Res

noncomputable section

/-- `computeRobustNeighborTransform` (PGOAgent.cpp:604-648), called with a `Pose` of dimension `dimension()`;
`chi2inv6` is the value of `chi2inv(0.9, 6)` (boost), not modelled.  The method has no caller in the repository. -/
def computeRobustNeighborTransform (o : AgentOracles) (chi2inv6 : ℝ) (a : Agent) (nid : Nat)
    (dict : PoseDict ℝ) : Res (Option (PArr ℝ)) := do
  let (Rs, ts) ← a.candidates nid dict
  if Rs.isEmpty then ok none
  else do
    let cbar ← computeErrorThresholdAtQuantile (9 / 10) 3 chi2inv6
    let ((R, t), inl) ← robustSinglePoseAveraging o.svd Rs ts (List.replicate Rs.length (182 / 100))
      (List.replicate Rs.length (1 / 100)) cbar
    if inl.length < a.params.minInliers then ok none
    else do
      let T ← PArr.identity a.dimension
      let T ← T.setRotation 0 R
      let T ← T.setTranslation 0 t
      ok (some T)

end

end Dpgo.Agent
