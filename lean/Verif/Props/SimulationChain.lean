import Verif.Props.SimulationRobot

/-! # C92: which chains can be created -/

namespace Verif.Sim
open Spec

theorem mapM_getKey {α β : Type} (f : α → Option β) (l : List α) :
    ((∀ a ∈ l, f a ≠ none) ∧ ∃ l', l.mapM (fun a => getKey (f a)) = .ok l') ∨
      ((∃ a ∈ l, f a = none) ∧ l.mapM (fun a => getKey (f a)) = .error .keyError) := by
  induction l with
  | nil => exact .inl ⟨by simp, [], rfl⟩
  | cons a l ih =>
    rw [List.mapM_cons]
    cases h : f a with
    | none => exact .inr ⟨⟨a, by simp, h⟩, rfl⟩
    | some b =>
      rcases ih with ⟨h1, l', h2⟩ | ⟨⟨c, hc, h1⟩, h2⟩
      · refine .inl ⟨?_, b :: l', by rw [h2]; rfl⟩
        intro c hc
        rcases List.mem_cons.mp hc with rfl | hc
        · rw [h]; simp
        · exact h1 c hc
      · exact .inr ⟨⟨c, by simp [hc], h1⟩, by rw [h2]; rfl⟩

/-- **C92 (errors).** For every robot (numbered as by PyBullet, see `C92_indices`) `KinematicsChain` can be created iff all given joints are
names of joints of the robot that are not fixed and the end effector is the name of a child link of a joint. Otherwise, e.g. if one of the
joints is fixed, a KeyError is raised. -/
theorem C92_chain_errors (base : String) (js : List JointInfo) (hnames : (js.map JointInfo.name).Nodup)
    (hlinks : (js.map JointInfo.childLink).Nodup)
    (hp : ∀ k (h : k < js.length), -1 ≤ js[k].parentIndex ∧ js[k].parentIndex ≤ k) (ht : ∀ j ∈ js, j.type ≤ 4)
    (names : List String) (ee : String) :
    ∃ ix, analyzeRobot base js = .ok ix ∧
      ((∃ c, IkChain.create ix ee names = .ok c) ↔
        (∀ n ∈ names, ∃ j ∈ js, j.name = n ∧ j.Movable) ∧ ∃ j ∈ js, j.childLink = ee) ∧
      ((¬∃ c, IkChain.create ix ee names = .ok c) → IkChain.create ix ee names = .error .keyError) := by
  obtain ⟨ix, h1, h2, h3, h4⟩ := C92_indices base js hnames hlinks hp ht
  have hik : ∀ n, ix.ik n ≠ none ↔ ∃ j ∈ js, j.name = n ∧ j.Movable := by
    intro n
    constructor
    · intro h
      by_cases hn : n ∈ js.map JointInfo.name
      · obtain ⟨j, hj, rfl⟩ := List.mem_map.mp hn
        obtain ⟨k, hk, rfl⟩ := List.getElem_of_mem hj
        refine ⟨js[k], hj, rfl, ?_⟩
        by_contra hm
        rw [(h2 k hk).2.2, if_neg hm] at h
        exact h rfl
      · exact absurd (h3 n hn).2 h
    · rintro ⟨j, hj, rfl, hm⟩
      obtain ⟨k, hk, rfl⟩ := List.getElem_of_mem hj
      rw [(h2 k hk).2.2, if_pos hm]
      simp
  have hj : ∀ n, ix.ik n ≠ none → ix.joint n ≠ none := by
    intro n h
    obtain ⟨j, hj, rfl, -⟩ := (hik n).1 h
    obtain ⟨k, hk, rfl⟩ := List.getElem_of_mem hj
    rw [(h2 k hk).1]
    simp
  have hl : ix.link (.str ee) ≠ none ↔ ∃ j ∈ js, j.childLink = ee := by
    constructor
    · intro h
      by_cases hn : ee ∈ js.map JointInfo.childLink
      · exact List.mem_map.mp hn
      · exact absurd (h4 ee hn) h
    · rintro ⟨j, hj, rfl⟩
      obtain ⟨k, hk, rfl⟩ := List.getElem_of_mem hj
      rw [(h2 k hk).2.1]
      simp
  refine ⟨ix, h1, ?_⟩
  have hcond : ((∀ n ∈ names, ∃ j ∈ js, j.name = n ∧ j.Movable) ∧ ∃ j ∈ js, j.childLink = ee) ↔
      (∀ n ∈ names, ix.ik n ≠ none) ∧ ix.link (.str ee) ≠ none := by
    rw [hl]
    simp only [hik]
  rw [hcond]
  unfold IkChain.create
  rcases mapM_getKey ix.joint names with ⟨a1, l1, b1⟩ | ⟨⟨n, hn, a1⟩, b1⟩
  · rw [b1]
    cases he : ix.link (.str ee) with
    | none => exact ⟨⟨fun ⟨c, hc⟩ => (by cases hc), fun h => absurd rfl h.2⟩, fun _ => rfl⟩
    | some e =>
      rcases mapM_getKey ix.ik names with ⟨a2, l2, b2⟩ | ⟨⟨n, hn, a2⟩, b2⟩
      · rw [b2]
        exact ⟨⟨fun _ => ⟨a2, by simp⟩, fun _ => ⟨_, rfl⟩⟩, fun h => absurd ⟨_, rfl⟩ h⟩
      · rw [b2]
        exact ⟨⟨fun ⟨c, hc⟩ => (by cases hc), fun h => absurd a2 (h.1 n hn)⟩, fun _ => rfl⟩
  · rw [b1]
    exact ⟨⟨fun ⟨c, hc⟩ => (by cases hc), fun h => absurd a1 (hj n (h.1 n hn))⟩, fun _ => rfl⟩

/-- A robot with a fixed joint. -/
example : ∃ ix, analyzeRobot "world" sampleRobot = .ok ix ∧ (∃ c, IkChain.create ix "lower_arm" ["elbow", "shoulder"] = .ok c) ∧
    ∃ j ∈ sampleRobot, ¬j.Movable ∧ IkChain.create ix "lower_arm" [j.name] = .error .keyError := by
  obtain ⟨ix, h1, h2, -⟩ := C92_chain_errors "world" sampleRobot sampleRobot_ok.1 sampleRobot_ok.2.1 sampleRobot_ok.2.2.1
    sampleRobot_ok.2.2.2 ["elbow", "shoulder"] "lower_arm"
  obtain ⟨ix', h1', h2', h3'⟩ := C92_chain_errors "world" sampleRobot sampleRobot_ok.1 sampleRobot_ok.2.1 sampleRobot_ok.2.2.1
    sampleRobot_ok.2.2.2 [sampleRobot[1].name] "lower_arm"
  rw [h1] at h1'
  injection h1' with h1'
  subst h1'
  refine ⟨ix, h1, h2.2 (by decide), sampleRobot[1], by simp, by decide, h3' ?_⟩
  rw [h2']
  decide

end Verif.Sim
