import Verif.Spec.Simulation
import Verif.Lemmas.Py
import Mathlib.Data.List.Nodup
import Mathlib.Data.List.GetD
import Mathlib.Tactic.IntervalCases
import Mathlib.Tactic.Tauto

/-! # C92: names and indices of joints and links -/

namespace Verif.Sim
open Spec

/-- What is known after the joints `done`. -/
structure AnalysisInv (base : String) (done : List JointInfo) (s : Analysis) : Prop where
  last : s.lastLink = done.length - 1
  linkKeys : ∀ k : ℤ, k ∈ s.links.map Prod.fst ↔ -1 ≤ k ∧ k < done.length
  linkNames : ∀ n, LinkName.str n ∈ s.links.map Prod.snd ↔ n ∈ done.map JointInfo.childLink
  link : ∀ k (h : k < done.length), (s.links.map Prod.swap).lookup (.str done[k].childLink) = some (k : ℤ)
  linkNone : ∀ n, n ∉ done.map JointInfo.childLink → (s.links.map Prod.swap).lookup (.str n) = none
  base : (s.links.map Prod.swap).lookup (.bytes base) = some (-1)
  joint : ∀ k (h : k < done.length), s.joints.lookup done[k].name = some k
  jointNone : ∀ n, n ∉ done.map JointInfo.name → s.joints.lookup n = none
  ik : ∀ k (h : k < done.length), s.ikJoints.lookup done[k].name =
    if done[k].Movable then some ((done.take k).countP fun j => j.Movable) else none
  ikNone : ∀ n, n ∉ done.map JointInfo.name → s.ikJoints.lookup n = none
  ikIndex : s.ikIndex = done.countP fun j => j.Movable

theorem jointType_ok {t : ℕ} (h : t ≤ 4) : ∃ n, jointType t = .ok n ∧ (n ≠ "fixed" ↔ t ≠ 4) := by
  interval_cases t
  · exact ⟨"revolute", rfl, by decide⟩
  · exact ⟨"prismatic", rfl, by decide⟩
  · exact ⟨"spherical", rfl, by decide⟩
  · exact ⟨"planar", rfl, by decide⟩
  · exact ⟨"fixed", rfl, by decide⟩

theorem getElem_concat {α : Type} (l : List α) (a : α) {k : ℕ} (h : k < (l ++ [a]).length) :
    (l ++ [a])[k] = if h' : k < l.length then l[k] else a := by
  split_ifs with h'
  · exact List.getElem_append_left h'
  · rw [List.getElem_append_right (by omega)]
    simp

theorem AnalysisInv.step {base : String} {done : List JointInfo} {s : Analysis} (hs : AnalysisInv base done s) {j : JointInfo}
    (hname : j.name ∉ done.map JointInfo.name) (hlink : j.childLink ∉ done.map JointInfo.childLink)
    (hparent : -1 ≤ j.parentIndex ∧ j.parentIndex ≤ done.length) (htype : j.type ≤ 4) :
    ∃ s', analyzeJoint done.length j s = .ok s' ∧ AnalysisInv base (done ++ [j]) s' := by
  obtain ⟨t, ht, htf⟩ := jointType_ok htype
  have hadd : addLink j.childLink s =
      { s with lastLink := s.lastLink + 1, links := (s.lastLink + 1, .str j.childLink) :: s.links } := by
    unfold addLink
    rw [if_neg (by rw [hs.linkNames]; exact hlink)]
  have hlast : s.lastLink + 1 = done.length := by rw [hs.last]; ring
  refine ⟨addJoint done.length j.name t (addLink j.childLink s), ?_, ?_⟩
  · unfold analyzeJoint
    rw [if_neg, ht]
    · rfl
    · rw [not_not, hadd]
      simp only [List.map_cons, List.mem_cons, hs.linkKeys, hlast]
      omega
  · have hne : ∀ k (h : k < done.length), done[k].name ≠ j.name := fun k h e =>
      hname (e ▸ List.mem_map.mpr ⟨_, List.getElem_mem h, rfl⟩)
    have hnl : ∀ k (h : k < done.length), done[k].childLink ≠ j.childLink := fun k h e =>
      hlink (e ▸ List.mem_map.mpr ⟨_, List.getElem_mem h, rfl⟩)
    have hjoints : (addJoint done.length j.name t (addLink j.childLink s)).joints = (j.name, done.length) :: s.joints := by
      unfold addJoint; rw [hadd]; split_ifs <;> rfl
    have hlinks : (addJoint done.length j.name t (addLink j.childLink s)).links =
        ((done.length : ℤ), .str j.childLink) :: s.links := by
      unfold addJoint; rw [hadd, ← hlast]; split_ifs <;> rfl
    have hik : (addJoint done.length j.name t (addLink j.childLink s)).ikJoints =
        if j.Movable then (j.name, s.ikIndex) :: s.ikJoints else s.ikJoints := by
      unfold addJoint
      rw [hadd]
      by_cases h4 : j.Movable
      · rw [if_pos (htf.mpr h4), if_pos h4]
      · rw [if_neg (fun h => h4 (htf.mp h)), if_neg h4]
    have hcount : (addJoint done.length j.name t (addLink j.childLink s)).ikIndex =
        if j.Movable then s.ikIndex + 1 else s.ikIndex := by
      unfold addJoint
      rw [hadd]
      by_cases h4 : j.Movable
      · rw [if_pos (htf.mpr h4), if_pos h4]
      · rw [if_neg (fun h => h4 (htf.mp h)), if_neg h4]
    have hll : (addJoint done.length j.name t (addLink j.childLink s)).lastLink = done.length := by
      unfold addJoint; rw [hadd, ← hlast]; split_ifs <;> rfl
    constructor
    · rw [hll]; simp
    · intro k
      rw [hlinks]
      simp only [List.map_cons, List.mem_cons, hs.linkKeys, List.length_append, List.length_singleton]
      push_cast
      omega
    · intro n
      rw [hlinks]
      simp only [List.map_cons, List.mem_cons, hs.linkNames, List.map_append, List.mem_append, List.map_nil,
        List.not_mem_nil, or_false, LinkName.str.injEq]
      tauto
    · intro k h
      rw [hlinks, getElem_concat]
      split_ifs with h'
      · rw [List.map_cons, Prod.swap_prod_mk, List.lookup_cons, beq_false_of_ne (by simpa using hnl k h')]
        exact hs.link k h'
      · have : k = done.length := by simp at h; omega
        simp [this]
    · intro n hn
      rw [List.map_append, List.mem_append, not_or] at hn
      rw [hlinks, List.map_cons, Prod.swap_prod_mk, List.lookup_cons, beq_false_of_ne (by simpa using hn.2)]
      exact hs.linkNone n hn.1
    · rw [hlinks, List.map_cons, Prod.swap_prod_mk, List.lookup_cons, beq_false_of_ne (by simp)]
      exact hs.base
    · intro k h
      rw [hjoints, getElem_concat]
      split_ifs with h'
      · rw [List.lookup_cons, beq_false_of_ne (hne k h')]
        exact hs.joint k h'
      · have : k = done.length := by simp at h; omega
        simp [this]
    · intro n hn
      rw [List.map_append, List.mem_append, not_or] at hn
      rw [hjoints, List.lookup_cons, beq_false_of_ne (by simpa using hn.2)]
      exact hs.jointNone n hn.1
    · intro k h
      rw [hik]
      simp only [getElem_concat]
      by_cases h' : k < done.length
      · simp only [h', dif_pos]
        rw [List.take_append_of_le_length h'.le]
        rw [← hs.ik k h']
        split_ifs
        · rw [List.lookup_cons, beq_false_of_ne (hne k h')]
        · rfl
      · have hk : k = done.length := by simp at h; omega
        subst hk
        simp only [lt_irrefl, dif_neg, not_false_eq_true, List.take_left']
        split_ifs
        · rw [List.lookup_cons, beq_self_eq_true, hs.ikIndex]
        · exact hs.ikNone _ hname
    · intro n hn
      rw [List.map_append, List.mem_append, not_or] at hn
      rw [hik]
      split_ifs
      · rw [List.lookup_cons, beq_false_of_ne (by simpa using hn.2)]
        exact hs.ikNone n hn.1
      · exact hs.ikNone n hn.1
    · rw [hcount, List.countP_append, hs.ikIndex, List.countP_singleton]
      split_ifs <;> simp_all

theorem analyzeLoop_ok {base : String} (js done : List JointInfo) {s : Analysis} (hs : AnalysisInv base done s)
    (hnames : ((done ++ js).map JointInfo.name).Nodup) (hlinks : ((done ++ js).map JointInfo.childLink).Nodup)
    (hp : ∀ k (h : k < (done ++ js).length), -1 ≤ (done ++ js)[k].parentIndex ∧ (done ++ js)[k].parentIndex ≤ k)
    (ht : ∀ j ∈ js, j.type ≤ 4) :
    ∃ s', analyzeLoop done.length js s = .ok s' ∧ AnalysisInv base (done ++ js) s' := by
  induction js generalizing done s with
  | nil => exact ⟨s, rfl, by simpa using hs⟩
  | cons j js ih =>
    have hn : j.name ∉ done.map JointInfo.name := by
      rw [List.map_append, List.nodup_append] at hnames
      intro h
      exact hnames.2.2 _ h _ (by simp) rfl
    have hl : j.childLink ∉ done.map JointInfo.childLink := by
      rw [List.map_append, List.nodup_append] at hlinks
      intro h
      exact hlinks.2.2 _ h _ (by simp) rfl
    have hpj : -1 ≤ j.parentIndex ∧ j.parentIndex ≤ done.length := by
      have := hp done.length (by simp)
      simpa using this
    obtain ⟨s1, h1, h2⟩ := hs.step hn hl hpj (ht j (by simp))
    have e : done ++ j :: js = (done ++ [j]) ++ js := by simp
    obtain ⟨s2, h3, h4⟩ := ih (done ++ [j]) h2 (e ▸ hnames) (e ▸ hlinks) (by
      intro k h
      have := hp k (by rw [e]; exact h)
      simp only [e] at this
      exact this) (fun x hx => ht x (List.mem_cons_of_mem _ hx))
    refine ⟨s2, ?_, e ▸ h4⟩
    rw [analyzeLoop, h1]
    rw [List.length_append, List.length_singleton] at h3
    exact h3

theorem inv_start (base : String) : AnalysisInv base []
    { lastLink := -1, links := [(-1, .bytes base)], joints := [], ikJoints := [], ikIndex := 0 } := by
  constructor
  · simp
  · intro k; simp; omega
  · intro n; simp
  · intro k h; simp at h
  · intro n _; rfl
  · simp
  · intro k h; simp at h
  · intro n _; rfl
  · intro k h; simp at h
  · intro n _; rfl
  · rfl

/-- **C92.** For every robot (numbered as by PyBullet: a link has the number of the joint that it is the child of, and a joint
comes after its parent link; different names; known joint types) `analyze_robot` returns for the name of each joint its number,
for the name of each child link its number, and for each joint that is not fixed its position among the joints that are not
fixed; for other names there is no entry. -/
theorem C92_indices (base : String) (js : List JointInfo) (hnames : (js.map JointInfo.name).Nodup)
    (hlinks : (js.map JointInfo.childLink).Nodup)
    (hp : ∀ k (h : k < js.length), -1 ≤ js[k].parentIndex ∧ js[k].parentIndex ≤ k) (ht : ∀ j ∈ js, j.type ≤ 4) :
    ∃ ix, analyzeRobot base js = .ok ix ∧
      (∀ k (h : k < js.length), ix.joint js[k].name = some k ∧ ix.link (.str js[k].childLink) = some (k : ℤ) ∧
        ix.ik js[k].name = if js[k].Movable then some ((js.take k).countP fun j => j.Movable) else none) ∧
      (∀ n, n ∉ js.map JointInfo.name → ix.joint n = none ∧ ix.ik n = none) ∧
      (∀ n, n ∉ js.map JointInfo.childLink → ix.link (.str n) = none) := by
  obtain ⟨s, h1, h2⟩ := analyzeLoop_ok js [] (inv_start base) (by simpa using hnames) (by simpa using hlinks)
    (by simpa using hp) ht
  simp only [List.nil_append, List.length_nil] at h1 h2
  refine ⟨⟨fun n => s.joints.lookup n, fun n => (s.links.map Prod.swap).lookup n, fun n => s.ikJoints.lookup n⟩, ?_, ?_, ?_,
    ?_⟩
  · unfold analyzeRobot
    rw [h1]
    rfl
  · intro k h
    exact ⟨h2.joint k h, h2.link k h, h2.ik k h⟩
  · intro n hn
    exact ⟨h2.jointNone n hn, h2.ikNone n hn⟩
  · exact h2.linkNone

/-- A robot with a fixed joint between two others. -/
def sampleRobot : List JointInfo :=
  [⟨"shoulder", 0, "upper_arm", -1⟩, ⟨"mount", 4, "camera", 0⟩, ⟨"elbow", 0, "lower_arm", 0⟩]

theorem sampleRobot_ok : (sampleRobot.map JointInfo.name).Nodup ∧ (sampleRobot.map JointInfo.childLink).Nodup ∧
    (∀ k (h : k < sampleRobot.length), -1 ≤ sampleRobot[k].parentIndex ∧ sampleRobot[k].parentIndex ≤ k) ∧
    (∀ j ∈ sampleRobot, j.type ≤ 4) := by
  refine ⟨by decide, by decide, ?_, by decide⟩
  intro k h
  have : k < 3 := h
  interval_cases k <;> simp [sampleRobot]

example : ∃ ix, analyzeRobot "world" sampleRobot = .ok ix ∧ ix.joint "elbow" = some 2 ∧ ix.ik "elbow" = some 1 ∧
    ix.link (.str "camera") = some 1 ∧ ix.ik "mount" = none ∧ ix.link (.str "world") = none := by
  obtain ⟨ix, h1, h2, -, h4⟩ := C92_indices "world" sampleRobot sampleRobot_ok.1 sampleRobot_ok.2.1 sampleRobot_ok.2.2.1
    sampleRobot_ok.2.2.2
  exact ⟨ix, h1, (h2 2 (by decide)).1, (h2 2 (by decide)).2.2, (h2 1 (by decide)).2.1, (h2 1 (by decide)).2.2,
    h4 "world" (by decide)⟩

/-- **C92 (finding).** The base link of a robot cannot be looked up by its name: unless another link has the same name there is no
entry for it, so that `KinematicsChain(ee_frame=<base link>, ...)` raises a KeyError. (There is an entry for the name as `bytes`.) -/
theorem C92_finding_base_link (base : String) (js : List JointInfo) (hnames : (js.map JointInfo.name).Nodup)
    (hlinks : (js.map JointInfo.childLink).Nodup)
    (hp : ∀ k (h : k < js.length), -1 ≤ js[k].parentIndex ∧ js[k].parentIndex ≤ k) (ht : ∀ j ∈ js, j.type ≤ 4)
    (hbase : base ∉ js.map JointInfo.childLink) :
    ∃ ix, analyzeRobot base js = .ok ix ∧ ix.link (.str base) = none ∧ ix.link (.bytes base) = some (-1) ∧
      IkChain.create ix base [] = .error .keyError := by
  obtain ⟨s, h1, h2⟩ := analyzeLoop_ok js [] (inv_start base) (by simpa using hnames) (by simpa using hlinks)
    (by simpa using hp) ht
  simp only [List.nil_append, List.length_nil] at h1 h2
  refine ⟨⟨fun n => s.joints.lookup n, fun n => (s.links.map Prod.swap).lookup n, fun n => s.ikJoints.lookup n⟩, ?_,
    h2.linkNone base hbase, h2.base, ?_⟩
  · unfold analyzeRobot
    rw [h1]
    rfl
  · unfold IkChain.create
    simp only [List.mapM_nil, h2.linkNone base hbase]
    rfl

theorem analyzeLoop_append (js ks : List JointInfo) (i : ℕ) (s : Analysis) :
    analyzeLoop i (js ++ ks) s = (analyzeLoop i js s).bind fun s => analyzeLoop (i + js.length) ks s := by
  induction js generalizing i s with
  | nil => rfl
  | cons j js ih =>
    rw [List.cons_append, analyzeLoop, analyzeLoop]
    cases analyzeJoint i j s with
    | error e => rfl
    | ok s' =>
      show analyzeLoop (i + 1) (js ++ ks) s' = (analyzeLoop (i + 1) js s').bind _
      rw [ih, List.length_cons, Nat.add_assoc, Nat.add_comm 1]

/-- **C92.** A joint type that PyBullet does not have is refused with a ValueError. -/
theorem C92_unknown_type (base : String) (js : List JointInfo) (j : JointInfo) (rest : List JointInfo)
    (hnames : ((js ++ [j]).map JointInfo.name).Nodup) (hlinks : ((js ++ [j]).map JointInfo.childLink).Nodup)
    (hp : ∀ k (h : k < (js ++ [j]).length), -1 ≤ (js ++ [j])[k].parentIndex ∧ (js ++ [j])[k].parentIndex ≤ k)
    (ht : ∀ j ∈ js, j.type ≤ 4) (hj : 4 < j.type) : analyzeRobot base (js ++ j :: rest) = .error .valueError := by
  have hn : (js.map JointInfo.name).Nodup := by
    rw [List.map_append, List.nodup_append] at hnames; exact hnames.1
  have hl : (js.map JointInfo.childLink).Nodup := by
    rw [List.map_append, List.nodup_append] at hlinks; exact hlinks.1
  have hl' : j.childLink ∉ js.map JointInfo.childLink := by
    rw [List.map_append, List.nodup_append] at hlinks
    intro h
    exact hlinks.2.2 _ h _ (by simp) rfl
  have hpj : -1 ≤ j.parentIndex ∧ j.parentIndex ≤ js.length := by
    have := hp js.length (by simp)
    simpa using this
  obtain ⟨s, h1, h2⟩ := analyzeLoop_ok js [] (inv_start base) (by simpa using hn) (by simpa using hl)
    (by
      intro k h
      have := hp k (by simp at h ⊢; omega)
      simp only [List.nil_append] at h
      rw [List.getElem_append_left h] at this
      simpa using this) ht
  simp only [List.nil_append, List.length_nil] at h1 h2
  have hadd : addLink j.childLink s =
      { s with lastLink := s.lastLink + 1, links := (s.lastLink + 1, .str j.childLink) :: s.links } := by
    unfold addLink
    rw [if_neg (by rw [h2.linkNames]; exact hl')]
  have hjoint : ∀ i, analyzeJoint i j s = .error .valueError := by
    intro i
    unfold analyzeJoint
    rw [if_neg]
    · have : jointType j.type = .error .valueError := by
        unfold jointType
        split <;> first | omega | rfl
      rw [this]; rfl
    · rw [not_not, hadd]
      simp only [List.map_cons, List.mem_cons, h2.linkKeys, h2.last]
      omega
  unfold analyzeRobot
  rw [analyzeLoop_append, h1]
  simp only [Except.bind, analyzeLoop, hjoint]
  rfl

example : analyzeRobot "world" (sampleRobot ++ [⟨"gear", 6, "wheel", 2⟩]) = .error .valueError := by
  refine C92_unknown_type "world" sampleRobot ⟨"gear", 6, "wheel", 2⟩ [] (by decide) (by decide) ?_ sampleRobot_ok.2.2.2
    (by decide)
  intro k h
  have : k < 4 := h
  interval_cases k <;> simp [sampleRobot]

/-! ### Chains of joints -/

theorem filter_range_getElem (p : ℕ → Bool) (n k : ℕ) (hk : k < n) (hp : p k = true) :
    ((List.range n).filter p)[(List.range k).countP p]? = some k := by
  obtain ⟨m, rfl⟩ := Nat.exists_eq_add_of_lt hk
  have : List.range (k + m + 1) = List.range k ++ (k :: (List.range m).map (k + 1 + ·)) := by
    rw [show k + m + 1 = k + (m + 1) by ring, List.range_add, List.range_succ_eq_map]
    congr 1
    simp only [List.map_cons, Nat.add_zero, List.map_map, List.cons.injEq, true_and]
    apply List.map_congr_left
    intro a _
    simp only [Function.comp]
    omega
  rw [this, List.filter_append, List.filter_cons_of_pos hp, List.countP_eq_length_filter,
    List.getElem?_append_right (le_refl _)]
  simp

theorem countP_take (js : List JointInfo) (k : ℕ) (hk : k ≤ js.length) :
    (js.take k).countP (fun j => decide j.Movable) =
      (List.range k).countP fun i => decide (∃ h : i < js.length, js[i].Movable) := by
  induction k with
  | zero => rfl
  | succ k ih =>
    rw [List.take_add_one, List.countP_append, ih (by omega), List.range_succ, List.countP_append]
    congr 1
    have hk' : k < js.length := by omega
    simp [hk']

theorem mapM_eq_ok {α β : Type} {f : α → Except PyErr β} {l : List α} {l' : List β}
    (h : List.Forall₂ (fun a b => f a = .ok b) l l') : l.mapM f = .ok l' := by
  induction h with
  | nil => rfl
  | cons h _ ih => rw [List.mapM_cons, h, ih]; rfl

/-- **C92.** Inverse kinematics of a chain returns the joint angles of its joints, in the order in which they were given: let `f k` be
the angle of joint number `k` in a solution of PyBullet, which consists of the angles of all joints that are not fixed, in their
order. For a chain of the joints with the numbers `ks` (not fixed) `KinematicsChain.inverse` selects the angles `f k` of these joints;
its commands are for the same joints, and its end effector is the link with the given name. -/
theorem C92_chain (base : String) (js : List JointInfo) (hnames : (js.map JointInfo.name).Nodup)
    (hlinks : (js.map JointInfo.childLink).Nodup)
    (hp : ∀ k (h : k < js.length), -1 ≤ js[k].parentIndex ∧ js[k].parentIndex ≤ k) (ht : ∀ j ∈ js, j.type ≤ 4)
    (names : List String) (ks : List ℕ)
    (hks : List.Forall₂ (fun n k => ∃ h : k < js.length, js[k].name = n ∧ js[k].Movable) names ks)
    (e : ℕ) (he : e < js.length) :
    ∃ ix c, analyzeRobot base js = .ok ix ∧ IkChain.create ix js[e].childLink names = .ok c ∧
      c.jointIndices = ks ∧ c.eeIndex = e ∧
      ∀ f : ℕ → ℝ, c.select ((movableJoints js).map f) =
        .ok (ks.map f) := by
  obtain ⟨ix, h1, h2, -, -⟩ := C92_indices base js hnames hlinks hp ht
  refine ⟨ix, ⟨ks, e, ks.map fun k => (List.range k).countP fun i => decide (∃ h : i < js.length, js[i].Movable)⟩, h1, ?_,
    rfl, rfl, ?_⟩
  · have m1 : names.mapM (fun n => getKey (ix.joint n)) = .ok ks := by
      apply mapM_eq_ok
      refine hks.imp ?_
      rintro n k ⟨h, rfl, -⟩
      rw [(h2 k h).1]; rfl
    have m2 : names.mapM (fun n => getKey (ix.ik n)) =
        .ok (ks.map fun k => (List.range k).countP fun i => decide (∃ h : i < js.length, js[i].Movable)) := by
      apply mapM_eq_ok
      rw [List.forall₂_map_right_iff]
      refine hks.imp ?_
      rintro n k ⟨h, rfl, hm⟩
      rw [(h2 k h).2.2, if_pos hm, countP_take js k h.le]; rfl
    unfold IkChain.create
    rw [m1, m2, (h2 e he).2.1]
    rfl
  · intro f
    unfold IkChain.select movableJoints
    apply mapM_eq_ok
    rw [List.forall₂_map_left_iff, List.forall₂_map_right_iff, List.forall₂_same]
    intro k hk
    obtain ⟨h, hm⟩ : ∃ h : k < js.length, js[k].Movable := by
      obtain ⟨i, hi, rfl⟩ := List.getElem_of_mem hk
      have := (List.forall₂_iff_get.mp hks).2 i (by rw [hks.length_eq]; exact hi) hi
      simp only [List.get_eq_getElem] at this
      exact ⟨this.1, this.2.2⟩
    rw [List.getElem?_map, filter_range_getElem _ _ _ h (by simpa using ⟨h, hm⟩)]
    rfl

example : ∃ ix c, analyzeRobot "world" sampleRobot = .ok ix ∧ IkChain.create ix "lower_arm" ["elbow", "shoulder"] = .ok c ∧
    c.jointIndices = [2, 0] := by
  obtain ⟨ix, c, h1, h2, h3, -⟩ := C92_chain "world" sampleRobot sampleRobot_ok.1 sampleRobot_ok.2.1 sampleRobot_ok.2.2.1
    sampleRobot_ok.2.2.2 ["elbow", "shoulder"] [2, 0]
    (.cons ⟨by decide, rfl, by decide⟩ (.cons ⟨by decide, rfl, by decide⟩ .nil)) 2 (by decide)
  exact ⟨ix, c, h1, h2, h3⟩

/-- **C92.** `UR5Simulation`: when all joints that are not fixed are revolute joints, then the first six values of a solution of inverse
kinematics are the angles of the joints that commands are sent to. -/
theorem C92_ur5_joints (dt : ℝ) (client : ℕ) (base : BPose) (js : List JointInfo) (hlen : 6 < js.length)
    (hrev : ∀ j ∈ js, j.Movable → j.type = 0) :
    ∃ u, UR5.create dt client base js = .ok u ∧ u.eeLink = (js[6].parentIndex + 2).toNat ∧ u.joints.Nodup ∧
      ∀ f : ℕ → ℝ, ((movableJoints js).map f).take 6 =
        u.joints.map f := by
  refine ⟨⟨dt, client, base, (js[6].parentIndex + 2).toNat,
    ((List.range js.length).filter fun i => (js[i]?.map JointInfo.type) = some 0).take 6⟩, ?_, rfl, ?_, ?_⟩
  · unfold UR5.create
    rw [List.getElem?_eq_getElem hlen]
  · exact (List.nodup_range.filter _).sublist (List.take_sublist _ _)
  · intro f
    simp only [movableJoints]
    rw [← List.map_take]
    congr 2
    apply List.filter_congr
    intro i hi
    have hi' : i < js.length := List.mem_range.mp hi
    rw [List.getElem?_eq_getElem hi']
    simp only [Option.map_some, Option.some.injEq, decide_eq_decide, hi', exists_true_left]
    constructor
    · exact hrev _ (List.getElem_mem hi')
    · intro h
      show js[i].type ≠ 4
      omega

end Verif.Sim
