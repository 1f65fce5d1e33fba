import Verif.Props.StateSpaceDistribution

/-! # The whole computation of `propagate_weight_distribution_to_state_space` (C54) -/

namespace Verif
open Spec StateSpace

/-- The parameter vector of a demonstration: weights of the DMP learned from it, its first and its last state and its
duration. -/
def Spec.IsSample (env : Env) (a : Args) (x : DualDemo) (p : List ℝ) : Prop :=
  ∃ dmp : DualCartesianDMP a.nWeightsPerDim, learnDmp env.ops env.qgrad a.nWeightsPerDim a.intDt x = .ok dmp ∧
    p = dmp.getWeights ++ List.ofFn (x.Y 0) ++ List.ofFn (x.Y (Fin.last _)) ++ [x.T (Fin.last _)]

/-- **C54.** If none of the demonstrations (at least one) is sampled faster than 200 Hz and a DMP can be learned from each,
then the result are the trajectories of the sigma points (for `alpha` and `kappa`, in this order) of the distribution of
the demonstrations' parameter vectors, executed for the mean duration of the demonstrations. -/
theorem C54_pipeline (env : Env) (a : Args) (samples : List (List ℝ))
    (hne : a.dataset ≠ []) (hfast : ∀ x ∈ a.dataset, 5 / 1000 ≤ x.dt)
    (hs : List.Forall₂ (IsSample env a) a.dataset samples) :
    compute env a = propagate env.ops env.stepFunction a.nWeightsPerDim
      ((a.dataset.map fun x => x.T (Fin.last _)).sum / a.dataset.length) a.dt a.intDt
      (env.sigma a.alpha a.kappa samples) := by
  have hcol : ∀ (xs : List DualDemo) (ps : List (List ℝ)), (∀ x ∈ xs, 5 / 1000 ≤ x.dt) →
      List.Forall₂ (IsSample env a) xs ps →
      collect env.ops env.qgrad a.nWeightsPerDim a.intDt xs = .ok (ps.zip (xs.map fun x => x.T (Fin.last _))) := by
    intro xs ps hx h
    induction h with
    | nil => rfl
    | cons hp _ ih =>
      obtain ⟨dmp, hd, rfl⟩ := hp
      unfold collect
      rw [if_neg (not_lt.2 (hx _ (by simp))), hd, ih fun x h => hx x (by simp [h])]
      rfl
  have hlen := hs.length_eq
  unfold compute estimateParameters
  rw [hcol _ _ hfast hs]
  have hne' : samples.zip (a.dataset.map fun x => x.T (Fin.last _)) ≠ [] := by
    intro h
    have := congrArg List.length h
    simp only [List.length_zip, List.length_map, List.length_nil, hlen, min_self] at this
    exact hne (List.eq_nil_of_length_eq_zero (hlen ▸ this))
  simp only [bind, Except.bind, if_neg hne', Pure.pure, Except.pure]
  rw [List.map_fst_zip (by simp [hlen]), List.map_snd_zip (by simp [hlen])]
  simp [hlen]

/-- The hypotheses are met by a data set of two demonstrations. -/
example (ops : QuatOps) : ∃ samples, samples.length = 2 ∧
    List.Forall₂ (IsSample (exampleEnv ops) ⟨[exampleDemo, exampleDemo], 10, 1, 0, 1, 1⟩) [exampleDemo, exampleDemo] samples ∧
    5 / 1000 ≤ exampleDemo.dt := by
  have hdt : exampleDemo.dt = 1 := by simp [exampleDemo, DualDemo.dt]; rfl
  have hlast : exampleDemo.T (Fin.last _) = 1 := by simp [exampleDemo]
  obtain ⟨s0, hs0, -⟩ := DualCartesianDMP.create_ok 10 (by norm_num) one_pos 1 1 0 false 25 (25 / 4)
  obtain ⟨w, hw, -⟩ := C28_dual_imitate (DualCartesianDMP.Reachable.create hs0) ops (fun _ _ => 0) exampleDemo.T
    exampleDemo.Y le_rfl (by simp [exampleDemo]) false
  have hlearn : ∃ d, learnDmp ops (fun _ _ _ => 0) 10 1 exampleDemo = .ok d := by
    unfold learnDmp
    rw [hdt, hlast, hs0]
    simp only [bind, Except.bind]
    have : (DualCartesianDMP.imitate ops ((fun _ _ _ => 0 : ∀ n, (Fin (n + 2) → Vec 4) → Fin (n + 2) → Vec 3)
      exampleDemo.n) exampleDemo.T exampleDemo.Y 0 false).exec s0 = _ := hw
    rw [this]
    exact ⟨_, rfl⟩
  obtain ⟨d, hd⟩ := hlearn
  have h : IsSample (exampleEnv ops) ⟨[exampleDemo, exampleDemo], 10, 1, 0, 1, 1⟩ exampleDemo _ := ⟨d, hd, rfl⟩
  exact ⟨[_, _], rfl, .cons h (.cons h .nil), by rw [hdt]; norm_num⟩

end Verif
