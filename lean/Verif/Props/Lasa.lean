import Verif.Spec.Lasa
import Mathlib.Tactic.Ring
import Mathlib.Tactic.FieldSimp
import Mathlib.Tactic.Linarith
import Mathlib.Tactic.NormNum
import Mathlib.Data.String.Basic

/-! # Crash safety of the download of the LASA data set (C55) and the loaded data (C69) -/

namespace Verif.Lasa
open Spec

/-- Leftovers of interrupted extractions agree with the archive and `lasa_data` does not exist. -/
structure Consistent (archive : List Member) (top : String) (fs : FS) : Prop where
  dirs : ∀ p, [top] <+: p → fs p = some .dir → IsDirOf archive p
  files : ∀ p c, [top] <+: p → fs p = some (.file c) → IsFileOf archive p
  absent : Absent fs ["lasa_data"]

/-- Operations of the extraction. -/
def Allowed (archive : List Member) (top : String) : Op → Prop
  | .mkdir p => [top] <+: p ∧ IsDirOf archive p
  | .truncate p => [top] <+: p ∧ IsFileOf archive p
  | .append p _ => [top] <+: p ∧ IsFileOf archive p
  | .rename _ _ => False

variable {archive : List Member} {top : String}

theorem not_lasa (h : top ≠ "lasa_data") {p : Path} (hp : [top] <+: p) (q : Path) : ["lasa_data"] ++ q ≠ p := by
  rintro rfl
  obtain ⟨r, hr⟩ := hp
  simp at hr
  exact h hr.1

theorem Consistent.update_dir (hn : top ≠ "lasa_data") {fs : FS} (h : Consistent archive top fs) {p : Path}
    (hp : [top] <+: p) (hd : IsDirOf archive p) : Consistent archive top (Function.update fs p (some .dir)) where
  dirs q hq hf := by
    by_cases e : q = p
    · rwa [e]
    · exact h.dirs q hq (by rwa [Function.update_of_ne e] at hf)
  files q c hq hf := by
    by_cases e : q = p
    · subst e; simp at hf
    · exact h.files q c hq (by rwa [Function.update_of_ne e] at hf)
  absent q := by
    rw [Function.update_of_ne (not_lasa hn hp q)]; exact h.absent q

theorem Consistent.update_file (hn : top ≠ "lasa_data") {fs : FS} (h : Consistent archive top fs) {p : Path}
    (hp : [top] <+: p) (hd : IsFileOf archive p) (c : List UInt8) :
    Consistent archive top (Function.update fs p (some (.file c))) where
  dirs q hq hf := by
    by_cases e : q = p
    · subst e; simp at hf
    · exact h.dirs q hq (by rwa [Function.update_of_ne e] at hf)
  files q c hq hf := by
    by_cases e : q = p
    · rwa [e]
    · exact h.files q c hq (by rwa [Function.update_of_ne e] at hf)
  absent q := by
    rw [Function.update_of_ne (not_lasa hn hp q)]; exact h.absent q

/-- Operations of the extraction keep the file system consistent, wherever they stop. -/
theorem Consistent.runOps (hn : top ≠ "lasa_data") : ∀ (ops : List Op) {fs : FS}, Consistent archive top fs →
    (∀ op ∈ ops, Allowed archive top op) → Consistent archive top (runOps fs ops).2
  | [], _, h, _ => h
  | op :: ops, fs, h, ha => by
    have hop := ha op (by simp)
    have hrest : ∀ op ∈ ops, Allowed archive top op := fun o ho => ha o (by simp [ho])
    unfold Lasa.runOps
    cases happ : op.apply fs with
    | error e => exact h
    | ok fs' =>
      refine Consistent.runOps hn ops ?_ hrest
      cases op with
      | mkdir p =>
        simp only [Op.apply] at happ
        split at happ
        · cases happ; exact h.update_dir hn hop.1 hop.2
        · cases happ; exact h
        · cases happ
      | truncate p =>
        simp only [Op.apply] at happ
        split at happ
        · cases happ
        · cases happ; exact h.update_file hn hop.1 hop.2 _
      | append p c =>
        simp only [Op.apply] at happ
        split at happ
        · cases happ; exact h.update_file hn hop.1 hop.2 _
        · cases happ
      | rename a b => exact hop.elim

theorem runOps_append (fs : FS) (l l' : List Op) {fs' : FS} (h : runOps fs l = (.ok (), fs')) :
    runOps fs (l ++ l') = runOps fs' l' := by
  induction l generalizing fs with
  | nil => simp only [runOps, Prod.mk.injEq, true_and] at h; subst h; rfl
  | cons op l ih =>
    simp only [List.cons_append, runOps] at h ⊢
    cases happ : op.apply fs with
    | error e => rw [happ] at h; simp at h
    | ok fs1 => rw [happ] at h; exact ih fs1 h

/-- Creation of directories. -/
theorem runOps_mkdirs (hw : WellFormed archive top) : ∀ (ps : List Path) {fs : FS}, Consistent archive top fs →
    (∀ p ∈ ps, [top] <+: p ∧ IsDirOf archive p) →
    ∃ fs', runOps fs (ps.map Op.mkdir) = (.ok (), fs') ∧ Consistent archive top fs' ∧
      (∀ p, fs p ≠ none → fs' p = fs p) ∧ ∀ p ∈ ps, fs' p = some .dir
  | [], fs, h, _ => ⟨fs, rfl, h, fun _ _ => rfl, by simp⟩
  | p :: ps, fs, h, ha => by
    obtain ⟨hp, hd⟩ := ha p (by simp)
    have hrest : ∀ p ∈ ps, [top] <+: p ∧ IsDirOf archive p := fun q hq => ha q (by simp [hq])
    have key : ∃ fs1, (Op.mkdir p).apply fs = .ok fs1 ∧ Consistent archive top fs1 ∧
        (∀ q, fs q ≠ none → fs1 q = fs q) ∧ fs1 p = some .dir := by
      cases hf : fs p with
      | none =>
        refine ⟨Function.update fs p (some .dir), by simp [Op.apply, hf], h.update_dir hw.name hp hd, ?_, by simp⟩
        intro q hq
        rw [Function.update_of_ne]
        rintro rfl; exact hq hf
      | some nd =>
        cases nd with
        | dir => exact ⟨fs, by simp [Op.apply, hf], h, fun _ _ => rfl, hf⟩
        | file c => exact absurd (h.files p c hp hf) (hw.tree p hd)
    obtain ⟨fs1, h1, h2, h3, h4⟩ := key
    obtain ⟨fs', h5, h6, h7, h8⟩ := runOps_mkdirs hw ps h2 hrest
    refine ⟨fs', by simp only [List.map_cons, runOps, h1, h5], h6, ?_, ?_⟩
    · intro q hq
      rw [h7 q (by rw [h3 q hq]; exact hq), h3 q hq]
    · intro q hq
      rcases List.mem_cons.1 hq with rfl | hq
      · rw [h7 q (by simp [h4]), h4]
      · exact h8 q hq

theorem runOps_appends (p : Path) : ∀ (chunks : List (List UInt8)) (fs : FS) (c : List UInt8), fs p = some (.file c) →
    ∃ fs', runOps fs (chunks.map (Op.append p)) = (.ok (), fs') ∧ fs' p = some (.file (c ++ chunks.flatten)) ∧
      ∀ q, q ≠ p → fs' q = fs q
  | [], fs, c, h => ⟨fs, rfl, by simpa using h, fun _ _ => rfl⟩
  | x :: xs, fs, c, h => by
    obtain ⟨fs', h1, h2, h3⟩ := runOps_appends p xs (Function.update fs p (some (.file (c ++ x)))) (c ++ x) (by simp)
    refine ⟨fs', by simp [runOps, Op.apply, h, h1], by simpa using h2, fun q hq => ?_⟩
    rw [h3 q hq, Function.update_of_ne hq]

theorem allowed_extractMember (hw : WellFormed archive top) {m : Member} (hm : m ∈ archive) :
    ∀ op ∈ extractMember m, Allowed archive top op := by
  have hb := hw.below m hm
  have hparents : ∀ p ∈ m.path.inits.filter (fun p => p ≠ [] ∧ p ≠ m.path), [top] <+: p ∧ IsDirOf archive p := by
    intro p hp
    simp only [ne_eq, List.mem_filter, List.mem_inits, decide_eq_true_eq] at hp
    obtain ⟨h1, h2, h3⟩ := hp
    refine ⟨?_, m, hm, h1, fun h => absurd h h3⟩
    refine List.prefix_of_prefix_length_le hb h1 ?_
    cases p with
    | nil => exact absurd rfl h2
    | cons a p => simp
  intro op hop
  simp only [extractMember, List.mem_append, List.mem_map] at hop
  rcases hop with ⟨p, hp, rfl⟩ | hop
  · exact hparents p hp
  · cases hc : m.chunks with
    | none =>
      rw [hc] at hop
      simp only [List.mem_singleton] at hop
      subst hop
      exact ⟨hb, m, hm, List.prefix_rfl, fun _ => hc⟩
    | some chunks =>
      rw [hc] at hop
      have hf : IsFileOf archive m.path := ⟨m, hm, rfl, by simp [hc]⟩
      simp only [List.mem_cons, List.mem_map] at hop
      rcases hop with rfl | ⟨x, -, rfl⟩
      · exact ⟨hb, hf⟩
      · exact ⟨hb, hf⟩

/-- A member is extracted without exception. -/
theorem runOps_extractMember (hw : WellFormed archive top) {m : Member} (hm : m ∈ archive) {fs : FS}
    (h : Consistent archive top fs) : ∃ fs', runOps fs (extractMember m) = (.ok (), fs') ∧ Consistent archive top fs' ∧
      fs' m.path = some (expected m) ∧ ∀ p, p ≠ m.path → fs p ≠ none → fs' p = fs p := by
  have hall := allowed_extractMember hw hm
  obtain ⟨fs1, h1, h2, h3, -⟩ := runOps_mkdirs hw (m.path.inits.filter (fun p => p ≠ [] ∧ p ≠ m.path)) h
    (fun p hp => hall (.mkdir p) (by
      unfold extractMember
      exact List.mem_append_left _ (List.mem_map_of_mem hp)))
  have hcons := Consistent.runOps hw.name (extractMember m) h hall
  suffices H : ∃ fs', runOps fs1 (match m.chunks with
      | none => [.mkdir m.path]
      | some chunks => .truncate m.path :: chunks.map (Op.append m.path)) = (.ok (), fs') ∧
      fs' m.path = some (expected m) ∧ ∀ p, p ≠ m.path → fs1 p ≠ none → fs' p = fs1 p by
    obtain ⟨fs', h4, h5, h6⟩ := H
    have hrun : runOps fs (extractMember m) = (.ok (), fs') := by
      unfold extractMember
      rw [runOps_append _ _ _ h1]
      exact h4
    refine ⟨fs', hrun, by rw [hrun] at hcons; exact hcons, h5, fun p hp hq => ?_⟩
    rw [h6 p hp (by rw [h3 p hq]; exact hq), h3 p hq]
  have hb := hw.below m hm
  cases hc : m.chunks with
  | none =>
    have hd : IsDirOf archive m.path := ⟨m, hm, List.prefix_rfl, fun _ => hc⟩
    obtain ⟨fs', h4, -, h6, h7⟩ := runOps_mkdirs hw [m.path] h2 (by simpa using ⟨hb, hd⟩)
    exact ⟨fs', h4, by simpa [expected, hc] using h7, fun p _ hq => h6 p hq⟩
  | some chunks =>
    have hf : IsFileOf archive m.path := ⟨m, hm, rfl, by simp [hc]⟩
    have htr : (Op.truncate m.path).apply fs1 = .ok (Function.update fs1 m.path (some (.file []))) := by
      simp only [Op.apply]
      split
      · rename_i he
        exact absurd hf (hw.tree _ (h2.dirs _ hb he))
      · rfl
    obtain ⟨fs', h4, h5, h6⟩ := runOps_appends m.path chunks (Function.update fs1 m.path (some (.file []))) [] (by simp)
    refine ⟨fs', by simp only [runOps, htr, h4], by simpa [expected, hc] using h5, fun p hp _ => ?_⟩
    rw [h6 p hp, Function.update_of_ne hp]

/-- Members are extracted without exception. -/
theorem runOps_extract (hw : WellFormed archive top) : ∀ (ms : List Member), (∀ m ∈ ms, m ∈ archive) →
    (ms.map Member.path).Nodup → ∀ {fs : FS}, Consistent archive top fs →
    ∃ fs', runOps fs (ms.flatMap extractMember) = (.ok (), fs') ∧ Consistent archive top fs' ∧
      (∀ m ∈ ms, fs' m.path = some (expected m)) ∧
      ∀ p, p ∉ ms.map Member.path → fs p ≠ none → fs' p = fs p
  | [], _, _, fs, h => ⟨fs, rfl, h, by simp, fun _ _ _ => rfl⟩
  | m :: ms, hsub, hnd, fs, h => by
    obtain ⟨fs1, h1, h2, h3, h4⟩ := runOps_extractMember hw (hsub m (by simp)) h
    simp only [List.map_cons, List.nodup_cons] at hnd
    obtain ⟨fs', h5, h6, h7, h8⟩ := runOps_extract hw ms (fun x hx => hsub x (by simp [hx])) hnd.2 h2
    refine ⟨fs', by rw [List.flatMap_cons, runOps_append _ _ _ h1, h5], h6, ?_, ?_⟩
    · intro x hx
      rcases List.mem_cons.1 hx with rfl | hx
      · rw [h8 _ hnd.1 (by simp [h3]), h3]
      · exact h7 x hx
    · intro p hp hf
      simp only [List.map_cons, List.mem_cons, not_or] at hp
      rw [h8 p hp.2 (by rw [h4 p hp.1 hf]; exact hf), h4 p hp.1 hf]

/-- An undisturbed installation. -/
theorem runOps_install (hw : WellFormed archive top) {fs : FS} (h : Consistent archive top fs) :
    ∃ fs', runOps fs (install archive) = (.ok (), fs') ∧ Complete archive top fs' ∧ isDir fs' ["lasa_data"] ∧
      (∀ q, fs' (top :: q) = none) ∧
      ∀ p, ¬[top] <+: p → ¬["lasa_data"] <+: p → fs p ≠ none → fs' p = fs p := by
  obtain ⟨fs1, h1, h2, h3, h4⟩ := runOps_extract hw archive (fun _ h => h) hw.nodup h
  obtain ⟨rest, hrest⟩ := hw.first
  have htop : fs1 [top] = some .dir := by
    have := h3 ⟨[top], none⟩ (by simp [hrest])
    simpa [expected] using this
  have hinst : install archive = archive.flatMap extractMember ++ [.rename [top] ["lasa_data"]] := by
    conv_lhs => unfold install
    congr 1
    rw [hrest]
  have hren : (Op.rename [top] ["lasa_data"]).apply fs1 = .ok (renamed [top] ["lasa_data"] fs1) := by
    have hex : ¬∃ p, fs1 (["lasa_data"] ++ p) ≠ none := by
      rintro ⟨p, hp⟩; exact hp (h2.absent p)
    simp only [Op.apply, htop, reduceCtorEq, if_false, if_neg hex]
  refine ⟨renamed [top] ["lasa_data"] fs1, ?_, ?_, ?_, ?_, ?_⟩
  · rw [hinst, runOps_append _ _ _ h1]
    simp only [runOps, hren]
  · intro m hm r hr
    simp only [renamed]
    rw [if_pos (by simp)]
    simp only [List.length_singleton, List.drop_succ_cons, List.drop_zero, List.singleton_append]
    rw [← hr]
    exact h3 m hm
  · simp [isDir, renamed, htop]
  · intro q
    have hl : ¬["lasa_data"] <+: top :: q := by
      intro hp; exact hw.name (by simpa using (List.cons_prefix_cons.1 hp).1.symm)
    simp only [renamed, if_neg hl]
    simp
  · intro p h5 h6 h7
    have h8 : p ∉ archive.map Member.path := by
      intro hm
      obtain ⟨m, hm', rfl⟩ := List.mem_map.1 hm
      exact h5 (hw.below m hm')
    simp only [renamed, if_neg h6, if_neg h5]
    exact h4 p h8 h7

/-- The file system is consistent or `lasa_data` is complete. -/
theorem reachable_invariant (hw : WellFormed archive top) {fs : FS} (h : Reachable archive top fs) :
    Consistent archive top fs ∨ (Complete archive top fs ∧ isDir fs ["lasa_data"]) := by
  induction h with
  | initial fs h1 h2 =>
    left
    refine ⟨fun p hp hf => ?_, fun p c hp hf => ?_, h1⟩
    · obtain ⟨q, rfl⟩ := hp
      rw [h2 q] at hf; simp at hf
    · obtain ⟨q, rfl⟩ := hp
      rw [h2 q] at hf; simp at hf
  | call fs k _ ih =>
    rcases ih with h | ⟨h1, h2⟩
    · have hnd : ¬isDir fs ["lasa_data"] := by
        have := h.absent []
        simp only [List.append_nil] at this
        simp [isDir, this]
      simp only [program, if_neg hnd]
      rcases Nat.lt_or_ge k (install archive).length with hk | hk
      · left
        obtain ⟨rest, hrest⟩ := hw.first
        have hinst : install archive = archive.flatMap extractMember ++ [.rename [top] ["lasa_data"]] := by
          conv_lhs => unfold install
          congr 1
          rw [hrest]
        rw [hinst] at hk ⊢
        rw [List.take_append_of_le_length (by rw [List.length_append, List.length_singleton] at hk; omega)]
        refine Consistent.runOps hw.name _ h fun op hop => ?_
        have := List.mem_of_mem_take hop
        rw [List.mem_flatMap] at this
        obtain ⟨m, hm, hop⟩ := this
        exact allowed_extractMember hw hm op hop
      · right
        rw [List.take_of_length_le hk]
        obtain ⟨fs', h3, h4, h5, -⟩ := runOps_install hw h
        rw [h3]
        exact ⟨h4, h5⟩
    · right
      simp only [program, if_pos h2, List.take_nil, runOps]
      exact ⟨h1, h2⟩

/-- C55. Whatever calls of `load_lasa` have been interrupted at whatever points, the directory `lasa_data` is complete
whenever anything exists there. -/
theorem C55_complete_if_exists (hw : WellFormed archive top) (fs : FS) (h : Reachable archive top fs) (q : Path)
    (hq : fs ("lasa_data" :: q) ≠ none) : Complete archive top fs := by
  rcases reachable_invariant hw h with h | h
  · exact absurd (h.absent q) hq
  · exact h.1

/-- C55. After any history of interrupted calls the next call that is not interrupted raises no exception and leaves a
complete directory. -/
theorem C55_repaired (hw : WellFormed archive top) (fs : FS) (h : Reachable archive top fs) :
    ∃ fs', runOps fs (program archive fs) = (.ok (), fs') ∧ Complete archive top fs' ∧ isDir fs' ["lasa_data"] := by
  rcases reachable_invariant hw h with h | h
  · have hnd : ¬isDir fs ["lasa_data"] := by
      have := h.absent []
      simp only [List.append_nil] at this
      simp [isDir, this]
    simp only [program, if_neg hnd]
    obtain ⟨fs', h1, h2, h3, -⟩ := runOps_install hw h
    exact ⟨fs', h1, h2, h3⟩
  · exact ⟨fs, by simp only [program, if_pos h.2, runOps], h.1, h.2⟩

/-- C55. The call that installs the data leaves no trace of the extracted archive, and does not touch anything else. -/
theorem C55_no_leftovers (hw : WellFormed archive top) (fs : FS) (h : Reachable archive top fs)
    (hno : fs ["lasa_data"] = none) :
    ∃ fs', runOps fs (program archive fs) = (.ok (), fs') ∧ (∀ q, fs' (top :: q) = none) ∧
      ∀ p, ¬[top] <+: p → ¬["lasa_data"] <+: p → fs p ≠ none → fs' p = fs p := by
  have hnd : ¬isDir fs ["lasa_data"] := by simp [isDir, hno]
  rcases reachable_invariant hw h with h | h
  · simp only [program, if_neg hnd]
    obtain ⟨fs', h1, -, -, h2⟩ := runOps_install hw h
    exact ⟨fs', h1, h2⟩
  · exact absurd h.2 hnd

/-- C55. A complete installation is never changed again. -/
theorem C55_stable (fs : FS) (h : isDir fs ["lasa_data"]) (k : ℕ) :
    runOps fs ((program archive fs).take k) = (.ok (), fs) := by
  simp only [program, if_pos h, List.take_nil, runOps]

/-- An archive with one file. -/
def smallArchive : List Member := [⟨["x"], none⟩, ⟨["x", "f"], some [[1]]⟩]

theorem smallArchive_wellFormed : WellFormed smallArchive "x" where
  first := ⟨_, rfl⟩
  name := by decide
  below := by simp [smallArchive]
  nodup := by simp [smallArchive]
  tree := by
    rintro p ⟨m, hm, h1, h2⟩ ⟨m', hm', h3, h4⟩
    simp only [smallArchive, List.mem_cons, List.not_mem_nil, or_false] at hm hm'
    rcases hm' with rfl | rfl
    · simp at h4
    · subst h3
      rcases hm with rfl | rfl
      · have := h1.length_le
        simp at this
      · simp at h2

/-- The hypotheses of the theorems above are met: a call that is killed after it has created the directory and an
empty file. -/
example : Reachable smallArchive "x" (runOps (fun _ => none) ((program smallArchive fun _ => none).take 3)).2 :=
  .call _ 3 (.initial _ (fun _ => rfl) fun _ => rfl)

/-- C55, violation for concurrent calls: two processes call `load_lasa`. The second one executes its first 3 operations
(it opens the file for writing) between the extraction of the first process and its renaming, and is killed. Then
`lasa_data` exists and is incomplete, and no later call repairs it. -/
theorem C55_concurrent_calls : ∃ a₁ a₂ b : List Op,
    a₁ ++ a₂ = install smallArchive ∧ b = (install smallArchive).take 3 ∧
    ∃ fs, runOps (fun _ => none) (a₁ ++ b ++ a₂) = (.ok (), fs) ∧ isDir fs ["lasa_data"] ∧
      ¬Complete smallArchive "x" fs ∧ ∀ k, runOps fs ((program smallArchive fs).take k) = (.ok (), fs) := by
  refine ⟨(install smallArchive).take 4, (install smallArchive).drop 4, _, List.take_append_drop _ _, rfl, ?_⟩
  have e : (install smallArchive).take 4 ++ (install smallArchive).take 3 ++ (install smallArchive).drop 4 =
      [.mkdir ["x"], .mkdir ["x"], .truncate ["x", "f"], .append ["x", "f"] [1],
       .mkdir ["x"], .mkdir ["x"], .truncate ["x", "f"], .rename ["x"] ["lasa_data"]] := by
    simp [install, smallArchive, extractMember]
  rw [e]
  have hd : ∃ fs, runOps (fun _ => none) [.mkdir ["x"], .mkdir ["x"], .truncate ["x", "f"], .append ["x", "f"] [1],
       .mkdir ["x"], .mkdir ["x"], .truncate ["x", "f"], .rename ["x"] ["lasa_data"]] = (.ok (), fs) ∧
      fs ["lasa_data"] = some .dir ∧ fs ["lasa_data", "f"] = some (.file []) := by
    simp [runOps, Op.apply, renamed, Function.update]
  obtain ⟨fs, h1, h2, h3⟩ := hd
  refine ⟨fs, h1, h2, fun hc => ?_, fun k => C55_stable fs h2 k⟩
  have := hc ⟨["x", "f"], some [[1]]⟩ (by simp [smallArchive]) ["f"] rfl
  rw [h3] at this
  simp [expected] at this

/-! ## Loaded data -/

/-- C69. The arrays contain the recorded numbers of every demonstration, step by step. -/
theorem C69_recorded {dims steps n : ℕ} (demos : Fin (n + 1) → MatDemo dims steps) (i : Fin (n + 1)) (k : Fin steps)
    (d : Fin dims) : (convert demos).X i k d = (demos i).pos d k ∧ (convert demos).Xd i k d = (demos i).vel d k ∧
      (convert demos).Xdd i k d = (demos i).acc d k := ⟨rfl, rfl, rfl⟩

/-- C69, violation: consecutive times of the result differ by `n_steps / (n_steps - 1)`, not by the returned time between
steps `dt`. -/
theorem C69_times_ignore_dt {dims steps n : ℕ} (demos : Fin (n + 1) → MatDemo dims (steps + 2)) (i : Fin (n + 1))
    (k : Fin (steps + 1)) : (convert demos).T i k.succ - (convert demos).T i k.castSucc = (steps + 2) / (steps + 1) := by
  have h : (steps + 2 : ℕ) ≠ 1 := by omega
  have h' : (steps : ℝ) + 1 ≠ 0 := (Nat.cast_add_one_pos steps).ne'
  simp only [convert, if_neg h, Fin.val_succ, Fin.val_castSucc]
  push_cast
  have : (steps : ℝ) + 2 - 1 = steps + 1 := by ring
  rw [this]
  ring

/-- C69. The velocities of demonstrations that are consistent with their `dt` (forward differences) are not consistent with
the returned times unless `dt` happens to be `n_steps / (n_steps - 1)`: the differences of the positions over the returned
times are the recorded velocities times `dt * (n_steps - 1) / n_steps`. -/
theorem C69_velocities_scaled {dims steps n : ℕ} (demos : Fin (n + 1) → MatDemo dims (steps + 2)) (i : Fin (n + 1))
    (k : Fin (steps + 1)) (d : Fin dims)
    (hv : (demos i).pos d k.succ - (demos i).pos d k.castSucc = (demos 0).dt * (demos i).vel d k.castSucc) :
    ((convert demos).X i k.succ d - (convert demos).X i k.castSucc d) /
      ((convert demos).T i k.succ - (convert demos).T i k.castSucc) =
    (convert demos).Xd i k.castSucc d * ((convert demos).dt * (steps + 1) / (steps + 2)) := by
  have h' : (steps : ℝ) + 1 ≠ 0 := (Nat.cast_add_one_pos steps).ne'
  have h'' : (steps : ℝ) + 2 ≠ 0 := by have := Nat.cast_add_one_pos (α := ℝ) steps; linarith
  rw [C69_times_ignore_dt]
  simp only [convert, hv]
  field_simp

/-- The hypothesis of `C69_velocities_scaled` is met by a uniform motion. -/
example : ∃ demo : MatDemo 1 (0 + 2), demo.pos 0 (0 : Fin 1).succ - demo.pos 0 (0 : Fin 1).castSucc =
    demo.dt * demo.vel 0 (0 : Fin 1).castSucc ∧ demo.dt ≠ 0 :=
  ⟨{ pos := fun _ k => (k : ℕ) * (1 / 10), vel := fun _ _ => 1, acc := fun _ _ => 0, dt := 1 / 10 }, by simp, by norm_num⟩

/-- C69. For every index in `range(n)` the shape with this position in the alphabetical order is chosen: exactly
`shape_idx` of the names in the sorted list precede it. -/
theorem C69_shape (names : List String) (i : ℕ) (h : i < names.length) :
    ∃ (f : String) (sorted : List String), shapeFile names i = .ok (f, String.ofList (f.toList.take (f.length - 4))) ∧
      sorted.Perm names ∧ sorted.Pairwise (· ≤ ·) ∧ sorted[i]? = some f := by
  have hperm := List.mergeSort_perm names (fun a b => decide (a ≤ b))
  have hlen : i < (names.mergeSort (fun a b => decide (a ≤ b))).length := by rw [hperm.length_eq]; exact h
  refine ⟨(names.mergeSort (fun a b => decide (a ≤ b)))[i], names.mergeSort (fun a b => decide (a ≤ b)), ?_, hperm, ?_,
    List.getElem?_eq_getElem hlen⟩
  · have h0 : ¬((i : ℤ) < 0) := by omega
    simp only [shapeFile, if_neg h0, Int.toNat_natCast, List.getElem?_eq_getElem hlen]
  · have := List.pairwise_mergeSort (le := fun a b : String => decide (a ≤ b))
      (fun a b c h1 h2 => by simp only [decide_eq_true_eq] at *; exact String.le_trans h1 h2)
      (fun a b => by simp only [Bool.or_eq_true, decide_eq_true_eq]; exact String.le_total a b) names
    exact this.imp fun h => by simpa using h

/-- C69. A negative index counts from the end of the alphabetical order: `-1` is the last file. -/
theorem C69_shape_negative (names : List String) (i : ℕ) (h0 : 0 < i) (h : i ≤ names.length) :
    shapeFile names (-(i : ℤ)) = shapeFile names ((names.length - i : ℕ) : ℤ) := by
  have hlen := (List.mergeSort_perm names (fun a b => decide (a ≤ b))).length_eq
  unfold shapeFile
  simp only [hlen]
  have h1 : -(i : ℤ) < 0 := by omega
  have h2 : ¬ ((names.length - i : ℕ) : ℤ) < 0 := by omega
  simp only [if_pos h1, if_neg h2]
  rw [show -(i : ℤ) + names.length = ((names.length - i : ℕ) : ℤ) by omega, if_neg h2]

/-- C69. An index out of range raises an `IndexError`. -/
theorem C69_shape_out_of_range (names : List String) (i : ℤ) (h : (names.length : ℤ) ≤ i ∨ i < -(names.length : ℤ)) :
    shapeFile names i = .error .indexError := by
  have hlen := (List.mergeSort_perm names (fun a b => decide (a ≤ b))).length_eq
  unfold shapeFile
  rcases h with h | h
  · have h0 : ¬(i < 0) := by omega
    simp only [if_neg h0]
    rw [List.getElem?_eq_none (by rw [hlen]; omega)]
  · have h0 : i < 0 := by omega
    simp only [if_pos h0, hlen]
    rw [if_pos (by omega)]

end Verif.Lasa
