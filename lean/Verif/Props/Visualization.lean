import Verif.Model.Visualization
import Verif.Lemmas.Py
import Mathlib.Data.Nat.Count
import Mathlib.Tactic.IntervalCases

/-! # C88: showing and hiding geometries, point clouds -/

namespace Verif
open Vis

/-- C88: two events of a key with the same modifiers (pressing and releasing it) show the geometry if no modifier key is
held, and hide it otherwise, whatever has happened before. -/
theorem C88_keystroke (modifiers : List ℕ) (m m' : ℕ) (h : m = 0 ↔ m' = 0) :
    (((Toggle.init |> modifiers.foldl fun s m => s.call m).call m).call m').visible = decide (m = 0) := by
  generalize (modifiers.foldl (fun s m => Toggle.call m s) Toggle.init) = s
  rcases s with ⟨a, b⟩
  by_cases hm : m = 0
  · have hm' := h.mp hm
    cases a <;> simp [Toggle.call, hm, hm']
  · have hm' : m' ≠ 0 := fun e => hm (h.mpr e)
    cases a <;> simp [Toggle.call, hm, hm']

/-- Finding (C88): it does not toggle: without a modifier key, the geometry is never hidden. -/
theorem C88_finding_never_hidden (n : ℕ) : ((Toggle.call 0)^[n] Toggle.init).visible = true := by
  have : ∀ s : Toggle, s.visible = true → ((Toggle.call 0)^[n] s).visible = true := by
    induction n with
    | zero => intro s hs; exact hs
    | succ n ih =>
      intro s hs
      rw [Function.iterate_succ_apply]
      apply ih
      rcases s with ⟨a, b⟩
      cases a <;> simp_all [Toggle.call]
  exact this _ rfl

/-- Finding (C88): a geometry that was hidden with a modifier key stays hidden as long as modifier keys are held. -/
theorem C88_finding_stays_hidden (s : Toggle) (hs : s.visible = false) (modifiers : List ℕ) (hm : ∀ m ∈ modifiers, m ≠ 0) :
    (modifiers.foldl (fun s m => s.call m) s).visible = false := by
  induction modifiers generalizing s with
  | nil => exact hs
  | cons m l ih =>
    rw [List.foldl_cons]
    apply ih _ _ (fun m' h => hm m' (by simp [h]))
    have := hm m (by simp)
    rcases s with ⟨a, b⟩
    cases a <;> simp_all [Toggle.call]

/-- Finding (C88): the attribute `show` does not tell whether the geometry is visible: after any history it can become
`True` while the geometry is hidden. -/
theorem C88_finding_flag (modifiers : List ℕ) :
    ∃ more : List ℕ, let s := (modifiers ++ more).foldl (fun s m => s.call m) Toggle.init
      s.show_ = true ∧ s.visible = false := by
  have : ∀ s : Toggle, ∃ more : List ℕ, (more.foldl (fun s m => s.call m) s).show_ = true ∧
      (more.foldl (fun s m => s.call m) s).visible = false := by
    rintro ⟨a, b⟩
    cases a
    · exact ⟨[1], by simp [Toggle.call]⟩
    · exact ⟨[1, 1], by simp [Toggle.call]⟩
  obtain ⟨more, h⟩ := this (modifiers.foldl (fun s m => s.call m) Toggle.init)
  exact ⟨more, by simpa [List.foldl_append] using h⟩

/-- Elements kept by `everyKth`, for a list whose first element has index `i`. -/
theorem Vis.filter_zipIdx {α : Type} (k : ℕ) (l : List α) (i : ℕ) :
    ((l.zipIdx i).filter fun p => p.2 % k = 0).map Prod.snd = ((List.range' i l.length).filter fun j => j % k = 0) := by
  induction l generalizing i with
  | nil => rfl
  | cons x l ih =>
    rw [List.zipIdx_cons, List.length_cons, List.range'_succ, List.filter_cons, List.filter_cons]
    by_cases h : i % k = 0
    · simp [h, ih]
    · simp [h, ih]

/-- C88: the point cloud that is returned is the one that was added to the figure. It has as many colours as points, all
equal to the requested colour. Without down-sampling it has all points. -/
theorem C88_pointcloud (points : List (Vec 3)) (color : Vec 3) (k : ℕ) (geometries : List PointCloud) :
    ∃ pcl, (plotPointcloud points color k).exec geometries = (.ok pcl, geometries ++ [pcl])
      ∧ pcl.colors.length = pcl.points.length ∧ (∀ c ∈ pcl.colors, c = color) ∧ (∀ x ∈ pcl.points, x ∈ points)
      ∧ (k ≤ 1 → pcl.points = points) := by
  refine ⟨_, rfl, ?_, ?_, ?_, ?_⟩
  · split
    · have h : ∀ {α : Type} (l : List α), (everyKth k l).length = ((List.range' 0 l.length).filter fun j => j % k = 0).length := by
        intro α l
        rw [← Vis.filter_zipIdx, everyKth, List.length_map, List.length_map]
      simp only [h, List.length_map, List.length_range]
    · simp
  · intro c hc
    split at hc
    · obtain ⟨p, hp, rfl⟩ := List.mem_map.mp hc
      have := List.fst_mem_of_mem_zipIdx (List.mem_of_mem_filter hp)
      simp at this
      exact this.2
    · simp at hc; exact hc.2
  · intro x hx
    split at hx
    · obtain ⟨p, hp, rfl⟩ := List.mem_map.mp hx
      exact List.fst_mem_of_mem_zipIdx (List.mem_of_mem_filter hp)
    · exact hx
  · intro hk
    rw [if_neg (by omega)]

/-- C88: with down-sampling by `k`, exactly the points whose index is a multiple of `k` are kept, in order. -/
theorem C88_downsampling (points : List (Vec 3)) (color : Vec 3) {k : ℕ} (hk : 1 < k) (geometries : List PointCloud) :
    ∃ pcl, ((plotPointcloud points color k).exec geometries).1 = .ok pcl ∧
      pcl.points = ((List.range points.length).filter fun j => j % k = 0).filterMap fun j => points[j]? := by
  refine ⟨_, rfl, ?_⟩
  rw [if_pos hk]
  have : ∀ (l pre : List (Vec 3)), ((l.zipIdx pre.length).filter fun p => p.2 % k = 0).map Prod.fst =
      ((List.range' pre.length l.length).filter fun j => j % k = 0).filterMap fun j => (pre ++ l)[j]? := by
    intro l
    induction l with
    | nil => intro pre; rfl
    | cons x l ih =>
      intro pre
      have h := ih (pre ++ [x])
      simp only [List.length_append, List.length_cons, List.length_nil, Nat.zero_add, List.append_assoc,
        List.singleton_append] at h
      rw [List.zipIdx_cons, List.length_cons, List.range'_succ, List.filter_cons, List.filter_cons]
      by_cases hp : pre.length % k = 0
      · simp [hp, h]
      · simp [hp, h]
  have h0 := this points []
  simpa [everyKth, List.range_eq_range'] using h0

/-- Hypotheses are met: five points, every second one is kept. -/
example (a b c d e : Vec 3) : everyKth 2 [a, b, c, d, e] = [a, c, e] := by simp [everyKth]

end Verif
