import Verif.Lemmas.Py
import Verif.Spec.Dmp

/-! # Sub-steps form a partition -/

namespace Verif

theorem subSteps_isPartition {intDt t : ℝ} (hd : 0 < intDt) (lastT : ℝ) (hlt : lastT ≤ t) :
    Spec.IsPartition lastT t intDt (subSteps intDt t lastT) := by
  suffices H : ∀ (n : ℕ) (lastT : ℝ), lastT ≤ t → nSub intDt t lastT = n →
      Spec.IsPartition lastT t intDt (subSteps intDt t lastT) from H _ lastT hlt rfl
  intro n
  induction n with
  | zero =>
    intro lastT hlt hn
    have h := (nSub_zero hd).1 hn
    have heq : t = lastT := le_antisymm h hlt
    rw [subSteps_of_le hd h]
    refine ⟨?_, by simp, by simp [heq], by simp, by simp⟩
    simp [heq]
  | succ k ih =>
    intro lastT hlt hn
    have h : lastT < t := by
      by_contra hc
      rw [(nSub_zero hd).2 (by linarith)] at hn; omega
    by_cases h2 : t - lastT ≤ intDt
    · rw [subSteps_last hd h h2]
      refine ⟨?_, ?_, by simp, ?_, ?_⟩
      · have := nSub_one hd h h2
        unfold nSub at this
        simp [this]
      · intro p hp
        simp only [List.mem_singleton] at hp
        subst hp
        simp only
        exact ⟨by linarith, h2⟩
      · intro i hi
        have : i = 0 := by simpa using hi
        subst this
        simp
      · intro i hi
        simp at hi
    · have h3 : intDt < t - lastT := by linarith
      have hs := nSub_succ hd h3.le
      have ihn := ih (lastT + intDt) (by linarith) (by omega)
      rw [subSteps_cons hd h3]
      refine ⟨?_, ?_, ?_, ?_, ?_⟩
      · have := ihn.length
        unfold nSub at hs
        simp [this, hs]
      · intro p hp
        rcases List.mem_cons.1 hp with rfl | hp
        · exact ⟨hd, le_rfl⟩
        · exact ihn.pos p hp
      · rw [List.map_cons, List.sum_cons, ihn.total]
        ring
      · intro i hi
        cases i with
        | zero => simp
        | succ i =>
          have := ihn.times i (by simpa using hi)
          simp only [List.getElem_cons_succ, this, List.take_succ_cons, List.map_cons, List.sum_cons]
          ring
      · intro i hi
        cases i with
        | zero => simp
        | succ i =>
          simp only [List.getElem_cons_succ]
          exact ihn.full i (by simpa using hi)

end Verif
