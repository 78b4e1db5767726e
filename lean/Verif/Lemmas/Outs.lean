import Verif.Props.ProjectCreate

/-!
# Several outputs of two files each

The outputs are written one after another; the result does not depend on the order and an interrupted run can be repeated.
-/

namespace Resistics

variable {W : Type}

/-- An output: a directory and what is written to its two files. -/
structure Out (W : Type) where
  dir : Path
  arr : Content W
  mdata : Content W

/-- Writing one output, as `writeLevels` does with overwriting. -/
def writeOut (x : Out W) : FsM W Unit := do
  checkDir true x.dir
  writeFile x.dir "data.npz" x.arr
  writeFile x.dir "metadata.json" x.mdata

/-- The files of an output. -/
def Out.IsFile (x : Out W) (q : Path) : Prop := q = x.dir ++ ["data.npz"] ∨ q = x.dir ++ ["metadata.json"]

/-- An output can be written. -/
def CanWrite (fs : FS W) (x : Out W) : Prop :=
  Usable true fs x.dir ∧ fs (x.dir ++ ["data.npz"]) ≠ some .dir ∧ fs (x.dir ++ ["metadata.json"]) ≠ some .dir

/-- The file system after writing an output. -/
def FS.put (fs : FS W) (x : Out W) : FS W :=
  (fs.withDirs x.dir.inits).with2 x.dir "data.npz" x.arr "metadata.json" x.mdata

theorem put_arr (fs : FS W) (x : Out W) : fs.put x (x.dir ++ ["data.npz"]) = some (.file x.arr) :=
  with2_first _ _ (by decide) _ _

theorem put_mdata (fs : FS W) (x : Out W) : fs.put x (x.dir ++ ["metadata.json"]) = some (.file x.mdata) :=
  with2_second _ _ _ _ _ _

theorem put_other (fs : FS W) (x : Out W) {q : Path} (h : ¬ x.IsFile q) :
    fs.put x q = if q <+: x.dir ∧ fs q = none then some .dir else fs q := by
  unfold Out.IsFile at h
  rw [not_or] at h
  unfold FS.put FS.with2
  rw [set_ne h.2, set_ne h.1]
  simp [FS.withDirs]

theorem not_file_prefix {x : Out W} {q : Path} (h : q <+: x.dir) : ¬ x.IsFile q := by
  rintro (rfl | rfl)
  · exact not_prefix_child _ _ h
  · exact not_prefix_child _ _ h

/-- In a tree, the check of the directory leaves it as if all missing parents were made. -/
theorem readyFs_eq {fs : FS W} (ht : fs.Tree) {dir : Path} (hu : Usable true fs dir) :
    readyFs fs dir = fs.withDirs dir.inits := by
  unfold readyFs
  split
  · rcases hu with ⟨_, h⟩ | ⟨h, _⟩
    · funext q
      unfold FS.withDirs
      rw [if_neg]
      rintro ⟨h1, h2⟩
      rw [ht.prefix_dir h ((List.mem_inits _ _).1 h1)] at h2
      cases h2
    · rename_i h' _; rw [h] at h'; cases h'
  · rfl

theorem tree_withDirs {fs : FS W} (ht : fs.Tree) {dir : Path} {l : List Path} (hl : l <+: dir.inits)
    (hf : ∀ q, q <+: dir → fs.isFile q = false) : (fs.withDirs l).Tree := by
  have hroot : ∀ q, fs q = some .dir → fs.withDirs l q = some .dir := by
    intro q hq
    simp [FS.withDirs, hq]
  refine ⟨hroot _ ht.root, ?_⟩
  intro p n h
  have hup : fs (p ++ [n]) = none → p ++ [n] ∈ l → fs.withDirs l p = some .dir := by
    intro hn hmem
    have hp : p ∈ l := by
      rw [List.prefix_iff_eq_take] at hl
      rw [hl] at hmem ⊢
      rw [List.mem_take_iff_getElem] at hmem ⊢
      obtain ⟨i, hi, he⟩ := hmem
      have hi' : i < dir.inits.length := by omega
      rw [List.getElem_inits] at he
      have hlen := congrArg List.length he
      simp only [List.length_take, List.length_append, List.length_singleton] at hlen
      have hil : i ≤ dir.length := by simpa using hi'
      refine ⟨p.length, by omega, ?_⟩
      rw [List.getElem_inits]
      have hi1 : i = p.length + 1 := by omega
      subst hi1
      have := congrArg (List.take p.length) he
      rw [List.take_take, min_eq_left (by omega)] at this
      simpa using this
    have hd : p <+: dir := (List.mem_inits _ _).1 (hl.subset hp)
    unfold FS.withDirs
    by_cases hpn : fs p = none
    · rw [if_pos ⟨hp, hpn⟩]
    · rw [if_neg (fun h => hpn h.2)]
      have := hf p hd
      unfold FS.isFile at this
      cases hx : fs p with
      | none => exact absurd hx hpn
      | some nd =>
        cases nd with
        | dir => rfl
        | file c => rw [hx] at this; cases this
  unfold FS.withDirs at h
  by_cases hc : p ++ [n] ∈ l ∧ fs (p ++ [n]) = none
  · exact hup hc.2 hc.1
  · rw [if_neg hc] at h
    exact hroot _ (ht.parent p n h)

theorem tree_set {fs : FS W} (ht : fs.Tree) {dir : Path} {n : String} (hd : fs dir = some .dir)
    (hn : fs (dir ++ [n]) ≠ some .dir) (c : Content W) : (fs.set (dir ++ [n]) (.file c)).Tree := by
  refine ⟨by rw [set_ne (by simp)]; exact ht.root, ?_⟩
  intro p m h
  by_cases he : p ++ [m] = dir ++ [n]
  · have hpd : p = dir := (List.append_inj' he rfl).1
    subst hpd
    rw [set_ne (dir_ne _ _)]
    exact hd
  · rw [set_ne he] at h
    have hp := ht.parent p m h
    by_cases hpe : p = dir ++ [n]
    · rw [hpe] at hp; exact absurd hp hn
    · rw [set_ne hpe]; exact hp

/-- Going from `fs` to `t` some of the outputs' files became files, some missing directories on the way were made, and
nothing else happened. -/
def Between (l : List (Out W)) (fs t : FS W) : Prop :=
  ∀ q, t q = fs q ∨ (∃ x ∈ l, q <+: x.dir ∧ fs q = none ∧ t q = some .dir) ∨
    ∃ x ∈ l, x.IsFile q ∧ fs q ≠ some .dir ∧ ∃ c, t q = some (.file c)

theorem Between.refl (l : List (Out W)) (fs : FS W) : Between l fs fs := fun _ => Or.inl rfl

theorem Between.mono {l l' : List (Out W)} (h : ∀ x ∈ l, x ∈ l') {fs t : FS W} (hb : Between l fs t) : Between l' fs t := by
  intro q
  rcases hb q with h1 | ⟨x, hx, h1⟩ | ⟨x, hx, h1⟩
  · exact Or.inl h1
  · exact Or.inr (Or.inl ⟨x, h x hx, h1⟩)
  · exact Or.inr (Or.inr ⟨x, h x hx, h1⟩)

theorem Between.trans {l : List (Out W)} {a b c : FS W} (h : Between l a b) (h' : Between l b c) : Between l a c := by
  intro q
  rcases h' q with h1 | ⟨x, hx, hp, h1, h2⟩ | h1
  · rw [h1]; exact h q
  · rcases h q with h3 | ⟨_, _, _, _, h4⟩ | ⟨_, _, _, _, c, h4⟩
    · exact Or.inr (Or.inl ⟨x, hx, hp, h3 ▸ h1, h2⟩)
    · rw [h4] at h1; cases h1
    · rw [h4] at h1; cases h1
  · obtain ⟨x, hx, h2, h3, h4⟩ := h1
    refine Or.inr (Or.inr ⟨x, hx, h2, ?_, h4⟩)
    rcases h q with h5 | ⟨_, _, _, h5, _⟩ | ⟨_, _, _, h5, _⟩
    · rw [← h5]; exact h3
    · rw [h5]; simp
    · exact h5

theorem between_set {l : List (Out W)} {x : Out W} (hx : x ∈ l) {q : Path} (hq : x.IsFile q) (fs : FS W) (hn : fs q ≠ some .dir)
    (c : Content W) : Between l fs (fs.set q (.file c)) := by
  intro p
  by_cases hp : p = q
  · subst hp
    exact Or.inr (Or.inr ⟨x, hx, hq, hn, c, set_eq⟩)
  · exact Or.inl (set_ne hp)

theorem between_withDirs {l : List (Out W)} {x : Out W} (hx : x ∈ l) {ds : List Path} (hd : ∀ q ∈ ds, q <+: x.dir) (fs : FS W) :
    Between l fs (fs.withDirs ds) := by
  intro q
  unfold FS.withDirs
  split
  · rename_i h
    exact Or.inr (Or.inl ⟨x, hx, hd q h.1, h.2, rfl⟩)
  · exact Or.inl rfl

/-- Writing an output that can be written. -/
theorem writeOut_ok {x : Out W} {s : FsState W} (ht : s.fs.Tree) (hc : CanWrite s.fs x) :
    ∃ steps, writeOut x s = (.ok (), s.after steps) ∧ (s.after steps).fs = s.fs.put x ∧
      (s.fs.put x).Tree ∧ ∀ t ∈ steps, Between [x] s.fs t ∧ t.Tree := by
  obtain ⟨hu, h1, h2⟩ := hc
  -- the check of the directory
  have hchk : ∃ mk, checkDir true x.dir s = (.ok (), s.after mk) ∧ (s.after mk).fs = s.fs.withDirs x.dir.inits ∧
      (∀ t ∈ mk, Between [x] s.fs t ∧ t.Tree) ∧ (s.fs.withDirs x.dir.inits).Tree := by
    rcases hu with ⟨_, h⟩ | ⟨h, hf⟩
    · have hself : s.fs.withDirs x.dir.inits = s.fs := by
        rw [← readyFs_eq ht (Or.inl ⟨rfl, h⟩)]
        simp [readyFs, h]
      refine ⟨[], ?_, by rw [after_nil, hself], by simp, by rw [hself]; exact ht⟩
      rcases checkDir_run true x.dir s with ⟨_, h', _⟩ | ⟨_, _, h'⟩ | ⟨h', _⟩ | ⟨h', _⟩
      · cases h'
      · rw [after_nil]; exact h'
      · rw [h] at h'; cases h'
      · rw [h] at h'; cases h'
    · have hmk : ∀ q, q <+: x.dir → ∀ c, s.fs q ≠ some (.file c) := by
        intro q hq c he
        have := hf q hq
        unfold FS.isFile at this
        rw [he] at this
        cases this
      obtain ⟨steps, h3, h4, h5⟩ := mkdirParents_states x.dir s hmk
      refine ⟨steps, ?_, h4, ?_, tree_withDirs ht (List.prefix_refl _) hf⟩
      · unfold checkDir
        rw [fs_read_bind]
        simp only [h, Option.isSome_none, Bool.false_eq_true, if_false]
        exact h3
      · intro t htm
        obtain ⟨l', h6, rfl⟩ := h5 t htm
        exact ⟨between_withDirs (by simp) (fun q hq => (List.mem_inits _ _).1 (h6.subset hq)) _, tree_withDirs ht h6 hf⟩
  obtain ⟨mk, hm1, hm2, hm3, hm4⟩ := hchk
  have hready := readyFs_eq ht hu
  have hdir : s.fs.withDirs x.dir.inits x.dir = some .dir := by rw [← hready]; exact readyFs_dir hu
  have hn1 : s.fs.withDirs x.dir.inits (x.dir ++ ["data.npz"]) ≠ some .dir := by
    rw [← hready, readyFs_file]; exact h1
  have hn2 : s.fs.withDirs x.dir.inits (x.dir ++ ["metadata.json"]) ≠ some .dir := by
    rw [← hready, readyFs_file]; exact h2
  have hne : x.dir ++ ["metadata.json"] ≠ x.dir ++ ["data.npz"] := by simp
  set g := s.fs.withDirs x.dir.inits with hg
  have hb0 : Between [x] s.fs g := between_withDirs (by simp) (fun q hq => (List.mem_inits _ _).1 hq) _
  refine ⟨mk ++ twoFileSteps g x.dir "data.npz" x.arr "metadata.json" x.mdata, ?_, twoFileSteps_fs _ _ _ _ _ _ _ _, ?_, ?_⟩
  · unfold writeOut
    rw [fs_bind, hm1]
    simp only
    rw [writeTwo_ok (by decide) (by rw [hm2]; exact hdir) (by rw [hm2]; exact hn1) (by rw [hm2]; exact hn2), after_after, hm2]
  · have t1 := tree_set hm4 hdir hn1 x.arr
    exact tree_set t1 (by rw [set_ne (dir_ne _ _)]; exact hdir) (by rw [set_ne hne]; exact hn2) x.mdata
  · intro t htm
    have f1 : x.IsFile (x.dir ++ ["data.npz"]) := Or.inl rfl
    have f2 : x.IsFile (x.dir ++ ["metadata.json"]) := Or.inr rfl
    have t1 : ∀ c, (g.set (x.dir ++ ["data.npz"]) (.file c)).Tree := fun c => tree_set hm4 hdir hn1 c
    have b1 : ∀ c, Between [x] s.fs (g.set (x.dir ++ ["data.npz"]) (.file c)) := fun c =>
      hb0.trans (between_set (by simp) f1 _ hn1 _)
    have t2 : ∀ c, ((g.set (x.dir ++ ["data.npz"]) (.file x.arr)).set (x.dir ++ ["metadata.json"]) (.file c)).Tree :=
      fun c => tree_set (t1 _) (by rw [set_ne (dir_ne _ _)]; exact hdir) (by rw [set_ne hne]; exact hn2) c
    have b2 : ∀ c, Between [x] s.fs ((g.set (x.dir ++ ["data.npz"]) (.file x.arr)).set (x.dir ++ ["metadata.json"]) (.file c)) :=
      fun c => (b1 _).trans (between_set (by simp) f2 _ (by rw [set_ne hne]; exact hn2) _)
    rw [List.mem_append] at htm
    rcases htm with htm | htm
    · exact hm3 t htm
    · unfold twoFileSteps at htm
      simp only [List.mem_cons, List.not_mem_nil, or_false] at htm
      rcases htm with rfl | rfl | rfl | rfl
      · exact ⟨b1 _, t1 _⟩
      · exact ⟨b1 _, t1 _⟩
      · exact ⟨b2 _, t2 _⟩
      · exact ⟨b2 _, t2 _⟩

/-- When an output is written, it could be. -/
theorem writeOut_inv {x : Out W} {s s' : FsState W} (h : writeOut x s = (.ok (), s')) : CanWrite s.fs x := by
  unfold writeOut at h
  rw [fs_bind] at h
  have hne : x.dir ++ ["metadata.json"] ≠ x.dir ++ ["data.npz"] := by simp
  have htwo : ∀ s1 : FsState W, (do writeFile x.dir "data.npz" x.arr; writeFile x.dir "metadata.json" x.mdata : FsM W Unit) s1 =
      (.ok (), s') → s1.fs x.dir = some .dir ∧ s1.fs (x.dir ++ ["data.npz"]) ≠ some .dir ∧
        s1.fs (x.dir ++ ["metadata.json"]) ≠ some .dir := by
    intro s1 h
    rw [fs_bind] at h
    rcases writeFile_run x.dir "data.npz" x.arr s1 with ⟨hg, hw⟩ | ⟨_, hw⟩
    · rw [hw] at h
      simp only at h
      rcases writeFile_run x.dir "metadata.json" x.mdata (s1.after [s1.fs.set (x.dir ++ ["data.npz"]) (.file .torn),
        s1.fs.set (x.dir ++ ["data.npz"]) (.file x.arr)]) with ⟨hg2, _⟩ | ⟨_, hw2⟩
      · rw [Bool.and_eq_true] at hg hg2
        have hfs : (s1.after [s1.fs.set (x.dir ++ ["data.npz"]) (.file .torn),
          s1.fs.set (x.dir ++ ["data.npz"]) (.file x.arr)]).fs = s1.fs.set (x.dir ++ ["data.npz"]) (.file x.arr) := rfl
        refine ⟨isDir_iff.1 hg.1, fun he => ?_, fun he => ?_⟩
        · rw [isDir_true he] at hg; simp at hg
        · rw [hfs, isDir_true (p := x.dir ++ ["metadata.json"]) (by rw [set_ne hne]; exact he)] at hg2
          simp at hg2
      · rw [hw2] at h; cases h
    · rw [hw] at h; cases h
  rcases checkDir_run true x.dir s with ⟨_, h', _⟩ | ⟨_, _, h'⟩ | ⟨_, _, h'⟩ | ⟨h1, h2, steps, h3, h4, _⟩
  · cases h'
  · rw [h'] at h
    obtain ⟨a, b, c⟩ := htwo s h
    exact ⟨Or.inl ⟨rfl, a⟩, b, c⟩
  · rw [h'] at h; cases h
  · rw [h3] at h
    obtain ⟨_, b, c⟩ := htwo _ h
    have hu : Usable true s.fs x.dir := Or.inr ⟨h1, h2⟩
    have hr : s.fs.withDirs x.dir.inits = readyFs s.fs x.dir := by simp [readyFs, h1]
    rw [h4, hr, readyFs_file] at b c
    exact ⟨hu, b, c⟩

/-- Outputs to different directories, none of which lies in another. -/
def Apart (l : List (Out W)) : Prop := ∀ x ∈ l, ∀ y ∈ l, x.dir <+: y.dir → x = y

theorem Apart.not_file {l : List (Out W)} (ha : Apart l) {x y : Out W} (hx : x ∈ l) (hy : y ∈ l) {q : Path}
    (hq : q <+: y.dir) : ¬ x.IsFile q := by
  intro hf
  have hp : x.dir <+: y.dir := by
    rcases hf with rfl | rfl
    · exact (List.prefix_append _ _).trans hq
    · exact (List.prefix_append _ _).trans hq
  have := ha x hx y hy hp
  subst this
  exact not_file_prefix hq hf

theorem Apart.file_unique {l : List (Out W)} (ha : Apart l) {x y : Out W} (hx : x ∈ l) (hy : y ∈ l) {q : Path}
    (h1 : x.IsFile q) (h2 : y.IsFile q) : x = y := by
  have hd : x.dir = y.dir := by
    have : ∀ (z : Out W), z.IsFile q → z.dir = q.dropLast := by
      rintro z (rfl | rfl) <;> simp
    rw [this x h1, this y h2]
  exact ha x hx y hy (hd ▸ List.prefix_refl _)

/-- Outputs can be written in `t` as in `fs`. -/
theorem Between.canWrite {l : List (Out W)} (ha : Apart l) {fs t : FS W} (hb : Between l fs t) (htree : fs.Tree)
    (htree' : t.Tree) {x : Out W} (hx : x ∈ l) : CanWrite t x ↔ CanWrite fs x := by
  have hfile : ∀ q, x.IsFile q → (t q = some .dir ↔ fs q = some .dir) := by
    intro q hq
    rcases hb q with h | ⟨y, hy, hp, _, _⟩ | ⟨_, _, _, h1, c, h2⟩
    · rw [h]
    · exact absurd hq (ha.not_file hx hy hp)
    · rw [h2]
      exact ⟨fun h => by simp at h, fun h => absurd h h1⟩
  have hpre : ∀ q, q <+: x.dir → t q = fs q ∨ (fs q = none ∧ t q = some .dir) := by
    intro q hq
    rcases hb q with h | ⟨y, hy, hp, h1, h2⟩ | ⟨y, hy, h1, _⟩
    · exact Or.inl h
    · exact Or.inr ⟨h1, h2⟩
    · exact absurd h1 (ha.not_file hy hx hq)
  have hisf : ∀ q, q <+: x.dir → t.isFile q = fs.isFile q := by
    intro q hq
    unfold FS.isFile
    rcases hpre q hq with h | ⟨h1, h2⟩
    · rw [h]
    · rw [h1, h2]
  have key : Usable true t x.dir ↔ Usable true fs x.dir := by
    unfold Usable
    rcases hpre x.dir (List.prefix_refl _) with h | ⟨h1, h2⟩
    · rw [h]
      simp only [true_and]
      exact or_congr Iff.rfl (and_congr Iff.rfl (forall_congr' fun q => imp_congr_right fun hq => by rw [hisf q hq]))
    · constructor
      · intro _
        refine Or.inr ⟨h1, fun q hq => ?_⟩
        rw [← hisf q hq]
        unfold FS.isFile
        rw [htree'.prefix_dir h2 hq]
      · intro _
        exact Or.inl ⟨rfl, h2⟩
  exact and_congr key (and_congr (not_congr (hfile _ (Or.inl rfl))) (not_congr (hfile _ (Or.inr rfl))))

/-- Writing outputs one after the other, stopping at the first exception. -/
def writeOuts : List (Out W) → FsM W Unit
  | [] => pure ()
  | x :: l => do
      writeOut x
      writeOuts l

/-- The file system `t` is `fs` with all the outputs. -/
def IsResult (l : List (Out W)) (fs t : FS W) : Prop :=
  (∀ x ∈ l, t (x.dir ++ ["data.npz"]) = some (.file x.arr) ∧ t (x.dir ++ ["metadata.json"]) = some (.file x.mdata)) ∧
  ∀ q, (∀ x ∈ l, ¬ x.IsFile q) →
    ((∃ x ∈ l, q <+: x.dir) → fs q = none → t q = some .dir) ∧ (¬ (∃ x ∈ l, q <+: x.dir) ∨ fs q ≠ none → t q = fs q)

theorem IsResult.unique {l l' : List (Out W)} (hl : ∀ x, x ∈ l ↔ x ∈ l') {fs t t' : FS W} (h : IsResult l fs t)
    (h' : IsResult l' fs t') : t = t' := by
  funext q
  by_cases hq : ∃ x ∈ l, x.IsFile q
  · obtain ⟨x, hx, rfl | rfl⟩ := hq
    · rw [(h.1 x hx).1, (h'.1 x ((hl x).1 hx)).1]
    · rw [(h.1 x hx).2, (h'.1 x ((hl x).1 hx)).2]
  · have hq1 : ∀ x ∈ l, ¬ x.IsFile q := fun x hx hf => hq ⟨x, hx, hf⟩
    have hq2 : ∀ x ∈ l', ¬ x.IsFile q := fun x hx hf => hq ⟨x, (hl x).2 hx, hf⟩
    obtain ⟨a1, a2⟩ := h.2 q hq1
    obtain ⟨b1, b2⟩ := h'.2 q hq2
    have hex : (∃ x ∈ l, q <+: x.dir) ↔ ∃ x ∈ l', q <+: x.dir := by simp only [hl]
    by_cases hp : (∃ x ∈ l, q <+: x.dir) ∧ fs q = none
    · rw [a1 hp.1 hp.2, b1 (hex.1 hp.1) hp.2]
    · have hp' : ¬ (∃ x ∈ l, q <+: x.dir) ∨ fs q ≠ none := not_and_or.1 hp
      rw [a2 hp', b2 (by rw [← hex]; exact hp')]

/-- The result does not change when the run starts from a state between. -/
theorem IsResult.between {l : List (Out W)} (ha : Apart l) {fs t r : FS W} (hb : Between l fs t) (h : IsResult l t r) :
    IsResult l fs r := by
  refine ⟨h.1, fun q hq => ?_⟩
  obtain ⟨h1, h2⟩ := h.2 q hq
  rcases hb q with e | ⟨x, hx, hp, e1, e2⟩ | ⟨x, hx, hf, _⟩
  · rw [e] at h1 h2
    exact ⟨h1, h2⟩
  · have hr : r q = some .dir := by rw [h2 (Or.inr (by rw [e2]; simp)), e2]
    refine ⟨fun _ _ => hr, fun hor => ?_⟩
    rcases hor with hor | hor
    · exact absurd ⟨x, hx, hp⟩ hor
    · exact absurd e1 hor
  · exact absurd hf (hq x hx)

theorem Apart.tail {x : Out W} {l : List (Out W)} (h : Apart (x :: l)) : Apart l :=
  fun a ha b hb => h a (by simp [ha]) b (by simp [hb])

theorem between_put {x : Out W} {fs : FS W} (hc : CanWrite fs x) : Between [x] fs (fs.put x) := by
  intro q
  by_cases hq : x.IsFile q
  · refine Or.inr (Or.inr ⟨x, by simp, hq, ?_, ?_⟩)
    · rcases hq with rfl | rfl
      · exact hc.2.1
      · exact hc.2.2
    · rcases hq with rfl | rfl
      · exact ⟨_, put_arr _ _⟩
      · exact ⟨_, put_mdata _ _⟩
  · rw [put_other _ _ hq]
    split
    · rename_i h
      exact Or.inr (Or.inl ⟨x, by simp, h.1, h.2, rfl⟩)
    · exact Or.inl rfl

/-- Writing outputs succeeds exactly when each can be written at the beginning, and then gives the file system with all of
them, whatever their order; in all states passed through nothing but the outputs has been touched. -/
theorem writeOuts_run {l : List (Out W)} (ha : Apart l) {s : FsState W} (ht : s.fs.Tree) :
    ((∀ x ∈ l, CanWrite s.fs x) → ∃ steps, writeOuts l s = (.ok (), s.after steps) ∧ IsResult l s.fs (s.after steps).fs ∧
      (s.after steps).fs.Tree ∧ ∀ t ∈ steps, Between l s.fs t ∧ t.Tree) ∧
    ∀ s', writeOuts l s = (.ok (), s') → ∀ x ∈ l, CanWrite s.fs x := by
  induction l generalizing s with
  | nil =>
    refine ⟨fun _ => ⟨[], by rw [after_nil]; rfl, ?_, by rw [after_nil]; exact ht, by simp⟩, by simp⟩
    rw [after_nil]
    exact ⟨by simp, fun q _ => ⟨by simp, fun _ => rfl⟩⟩
  | cons x l ih =>
    constructor
    · intro hc
      obtain ⟨st, w1, w2, w3, w4⟩ := writeOut_ok ht (hc x (by simp))
      have hbx : Between (x :: l) s.fs (s.fs.put x) := (between_put (hc x (by simp))).mono (by simp)
      obtain ⟨st2, v1, v2, v3, v4⟩ := (ih ha.tail (s := s.after st) (by rw [w2]; exact w3)).1 (fun y hy => by
        rw [w2]
        exact (hbx.canWrite ha ht w3 (by simp [hy])).2 (hc y (by simp [hy])))
      rw [w2] at v2 v4
      refine ⟨st ++ st2, ?_, ?_, by rw [← after_after]; exact v3, ?_⟩
      · unfold writeOuts
        rw [fs_bind, w1]
        simp only
        rw [v1, after_after]
      · rw [← after_after]
        set r := ((s.after st).after st2).fs with hr
        constructor
        · intro y hy
          by_cases hyl : y ∈ l
          · exact v2.1 y hyl
          · rcases List.mem_cons.1 hy with rfl | hy
            · have hno : ∀ q, y.IsFile q → ∀ z ∈ l, ¬ z.IsFile q := by
                intro q hq z hz hzq
                have := ha.file_unique (x := y) (y := z) (by simp) (by simp [hz]) hq hzq
                subst this
                exact hyl hz
              have hkeep : ∀ q, y.IsFile q → r q = s.fs.put y q := by
                intro q hq
                refine (v2.2 q (hno q hq)).2 (Or.inr ?_)
                rcases hq with rfl | rfl
                · rw [put_arr]; simp
                · rw [put_mdata]; simp
              rw [hkeep _ (Or.inl rfl), hkeep _ (Or.inr rfl), put_arr, put_mdata]
              exact ⟨rfl, rfl⟩
            · exact absurd hy hyl
        · intro q hq
          have hqx : ¬ x.IsFile q := hq x (by simp)
          obtain ⟨u1, u2⟩ := v2.2 q (fun y hy => hq y (by simp [hy]))
          rw [put_other _ _ hqx] at u1 u2
          constructor
          · rintro ⟨y, hy, hp⟩ hn
            by_cases hpx : q <+: x.dir
            · rw [if_pos ⟨hpx, hn⟩] at u2
              exact u2 (Or.inr (by simp))
            · rw [if_neg (fun h => hpx h.1)] at u1
              refine u1 ⟨y, ?_, hp⟩ hn
              rcases List.mem_cons.1 hy with rfl | hy
              · exact absurd hp hpx
              · exact hy
          · intro hor
            have hc2 : ¬ (q <+: x.dir ∧ s.fs q = none) := by
              rintro ⟨h1, h2⟩
              rcases hor with h | h
              · exact h ⟨x, by simp, h1⟩
              · exact h h2
            rw [if_neg hc2] at u2
            refine u2 (hor.imp (fun h => ?_) id)
            rintro ⟨y, hy, hp⟩
            exact h ⟨y, by simp [hy], hp⟩
      · intro t htm
        rcases List.mem_append.1 htm with htm | htm
        · exact ⟨(w4 t htm).1.mono (by simp), (w4 t htm).2⟩
        · exact ⟨hbx.trans ((v4 t htm).1.mono (fun y hy => by simp [hy])), (v4 t htm).2⟩
    · intro s' h
      unfold writeOuts at h
      rw [fs_bind] at h
      rcases hw : writeOut x s with ⟨r, s1⟩
      rw [hw] at h
      cases r with
      | error e => cases h
      | ok u =>
        simp only at h
        have hcx := writeOut_inv hw
        obtain ⟨st, w1, w2, w3, w4⟩ := writeOut_ok ht hcx
        have hs1 : s1 = s.after st := by
          rw [hw] at w1
          exact (Prod.mk.inj w1).2
        have hbx : Between (x :: l) s.fs (s.fs.put x) := (between_put hcx).mono (by simp)
        subst hs1
        have hrest := (ih ha.tail (s := s.after st) (by rw [w2]; exact w3)).2 s' h
        intro y hy
        rcases List.mem_cons.1 hy with rfl | hy
        · exact hcx
        · have := hrest y hy
          rw [w2] at this
          exact (hbx.canWrite ha ht w3 (by simp [hy])).1 this

end Resistics
