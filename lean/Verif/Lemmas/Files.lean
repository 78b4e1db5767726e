import Verif.Model.Files
import Verif.Lemmas.Except

/-! # Lemmas about the file system of `Verif.Model.Files` -/

namespace Resistics

variable {α β W : Type}

theorem fs_bind (x : FsM W α) (f : α → FsM W β) (s : FsState W) :
    (x >>= f) s = match x s with
      | (.ok a, s') => f a s'
      | (.error e, s') => (.error e, s') := by
  show (ExceptT.bind x f) s = _
  unfold ExceptT.bind ExceptT.mk
  show (StateT.bind x (ExceptT.bindCont f)) s = _
  unfold StateT.bind
  simp only [bind, pure]
  rcases x s with ⟨r, s'⟩
  cases r <;> rfl

theorem fs_pure (a : α) (s : FsState W) : (pure a : FsM W α) s = (.ok a, s) := rfl

theorem fs_throw (e : Err) (s : FsState W) : (throw e : FsM W α) s = (.error e, s) := rfl

theorem fs_read_bind (f : FS W → Except Err α) (g : α → FsM W β) (s : FsState W) :
    (fsRead f >>= g) s = match f s.fs with
      | .ok a => g a s
      | .error e => (.error e, s) := by
  rw [fs_bind]
  show (match (f s.fs, s) with
      | (.ok a, s') => g a s'
      | (.error e, s') => (.error e, s')) = _
  cases f s.fs <;> rfl

/-- The state after a list of steps. -/
def FsState.after (s : FsState W) (steps : List (FS W)) : FsState W :=
  { fs := (steps.getLast?).getD s.fs, trace := s.trace ++ steps }

theorem after_nil (s : FsState W) : s.after [] = s := by
  simp [FsState.after]

theorem after_after (s : FsState W) (a b : List (FS W)) : (s.after a).after b = s.after (a ++ b) := by
  cases b with
  | nil => simp [FsState.after]
  | cons x b => simp [FsState.after, List.getLast?_append]

theorem fsStep_run (f : FS W → FS W) (s : FsState W) : fsStep f s = (.ok (), s.after [f s.fs]) := rfl

/-- The relation of a file system to one from which it came while writing the files `names` in `dir`. -/
def Frame (dir : Path) (names : List String) (fs t : FS W) : Prop :=
  ∀ q, t q = fs q ∨ (q <+: dir ∧ fs q = none ∧ t q = some .dir) ∨ ∃ n ∈ names, q = dir ++ [n]

theorem Frame.refl (dir : Path) (names : List String) (fs : FS W) : Frame dir names fs fs := fun _ => Or.inl rfl

theorem Frame.mono {dir : Path} {a b : List String} (hab : ∀ n ∈ a, n ∈ b) {fs t : FS W} (h : Frame dir a fs t) :
    Frame dir b fs t := by
  intro q
  rcases h q with h1 | h1 | ⟨n, hn, rfl⟩
  · exact Or.inl h1
  · exact Or.inr (Or.inl h1)
  · exact Or.inr (Or.inr ⟨n, hab n hn, rfl⟩)

theorem Frame.trans {dir : Path} {names : List String} {a b c : FS W} (h : Frame dir names a b)
    (h' : Frame dir names b c) : Frame dir names a c := by
  intro q
  rcases h' q with h1 | ⟨hp, h1, h2⟩ | h1
  · rw [h1]; exact h q
  · rcases h q with h3 | ⟨_, h3, h4⟩ | h3
    · exact Or.inr (Or.inl ⟨hp, h3 ▸ h1, h2⟩)
    · rw [h4] at h1; cases h1
    · exact Or.inr (Or.inr h3)
  · exact Or.inr (Or.inr h1)

theorem Frame.set_file {dir : Path} {names : List String} {a : FS W} {n : String} (hn : n ∈ names) (x : Node W) :
    Frame dir names a (a.set (dir ++ [n]) x) := by
  intro q
  by_cases hq : q = dir ++ [n]
  · exact Or.inr (Or.inr ⟨n, hn, hq⟩)
  · left; simp [FS.set, hq]

theorem Frame.set_dir {dir : Path} {names : List String} {a : FS W} {q : Path} (hq : q <+: dir) (hn : a q = none) :
    Frame dir names a (a.set q .dir) := by
  intro x
  by_cases hx : x = q
  · subst hx
    exact Or.inr (Or.inl ⟨hq, hn, by simp [FS.set]⟩)
  · left; simp [FS.set, hx]

/-- The file system with the missing ones of the given directories. -/
def FS.withDirs (fs : FS W) (l : List Path) : FS W := fun q => if q ∈ l ∧ fs q = none then some .dir else fs q

/-- Making directories: which steps there are, and where they end. -/
theorem mkdirEach_run (dir : Path) (l : List Path) (hl : ∀ q ∈ l, q <+: dir) (s : FsState W) :
    ∃ steps, mkdirEach l s = (.ok (), s.after steps) ∧ (s.after steps).fs = s.fs.withDirs l ∧
      ∀ t ∈ steps, Frame dir [] s.fs t := by
  induction l generalizing s with
  | nil =>
    refine ⟨[], by rw [after_nil]; rfl, ?_, by simp⟩
    rw [after_nil]
    funext q
    simp [FS.withDirs]
  | cons q l ih =>
    have hl' : ∀ x ∈ l, x <+: dir := fun x hx => hl x (by simp [hx])
    unfold mkdirEach
    rw [fs_read_bind]
    simp only
    cases hq : s.fs q with
    | some n =>
      obtain ⟨steps, h1, h2, h3⟩ := ih hl' s
      refine ⟨steps, by simpa using h1, ?_, h3⟩
      rw [h2]
      funext x
      simp only [FS.withDirs, List.mem_cons]
      by_cases hx : x = q
      · subst hx; simp [hq]
      · simp [hx]
    | none =>
      simp only [Option.isSome_none, Bool.false_eq_true, if_false]
      rw [fs_bind, fsStep_run]
      simp only
      obtain ⟨steps, h1, h2, h3⟩ := ih hl' (s.after [s.fs.set q .dir])
      have hfs : (s.after [s.fs.set q .dir]).fs = s.fs.set q .dir := rfl
      rw [hfs] at h2 h3
      refine ⟨s.fs.set q .dir :: steps, ?_, ?_, ?_⟩
      · rw [h1, after_after]; rfl
      · have := after_after s [s.fs.set q .dir] steps
        rw [List.singleton_append] at this
        rw [← this, h2]
        funext x
        simp only [FS.withDirs, List.mem_cons, FS.set]
        by_cases hx : x = q
        · subst hx; simp [hq]
        · simp [hx]
      · intro t ht
        have h0 : Frame dir [] s.fs (s.fs.set q .dir) := Frame.set_dir (hl q (by simp)) hq
        rcases List.mem_cons.1 ht with rfl | ht
        · exact h0
        · exact h0.trans (h3 t ht)

/-- The check of the output directory. -/
theorem checkDir_run (overwrite : Bool) (dir : Path) (s : FsState W) :
    ((s.fs dir).isSome = true ∧ overwrite = false ∧ checkDir overwrite dir s = (.error .write, s)) ∨
    ((s.fs dir).isSome = true ∧ overwrite = true ∧ checkDir overwrite dir s = (.ok (), s)) ∨
    (s.fs dir = none ∧ (∃ q, q <+: dir ∧ s.fs.isFile q = true) ∧ checkDir overwrite dir s = (.error .os, s)) ∨
    (s.fs dir = none ∧ (∀ q, q <+: dir → s.fs.isFile q = false) ∧ ∃ steps,
      checkDir overwrite dir s = (.ok (), s.after steps) ∧ (s.after steps).fs = s.fs.withDirs dir.inits ∧
        ∀ t ∈ steps, Frame dir [] s.fs t) := by
  have hrun : checkDir overwrite dir s = (if (s.fs dir).isSome then
      (if overwrite then pure () else throw .write) else mkdirParents dir : FsM W Unit) s := by
    unfold checkDir
    rw [fs_read_bind]
  cases hd : s.fs dir with
  | some n =>
    rw [hd] at hrun
    cases overwrite with
    | false => exact Or.inl ⟨rfl, rfl, hrun⟩
    | true => exact Or.inr (Or.inl ⟨rfl, rfl, hrun⟩)
  | none =>
    rw [hd] at hrun
    right; right
    have hm : mkdirParents dir s =
        (if (dir.inits.any fun q => s.fs.isFile q) then throw .os else mkdirEach dir.inits : FsM W Unit) s := by
      unfold mkdirParents
      rw [fs_read_bind]
    have hrun' : checkDir overwrite dir s = mkdirParents dir s := hrun
    by_cases hbad : (dir.inits.any fun q => s.fs.isFile q) = true
    · left
      refine ⟨rfl, ?_, ?_⟩
      · obtain ⟨q, hq, hf⟩ := List.any_eq_true.1 hbad
        exact ⟨q, List.mem_inits _ _ |>.1 hq, hf⟩
      · rw [hrun', hm, if_pos hbad]; rfl
    · right
      refine ⟨rfl, ?_, ?_⟩
      · intro q hq
        by_contra hne
        exact hbad (List.any_eq_true.2 ⟨q, List.mem_inits _ _ |>.2 hq, by simpa using hne⟩)
      · obtain ⟨steps, h1, h2, h3⟩ := mkdirEach_run dir dir.inits (fun q hq => List.mem_inits _ _ |>.1 hq) s
        exact ⟨steps, by rw [hrun', hm, if_neg hbad]; exact h1, h2, h3⟩

/-- Writing one file. -/
theorem writeFile_run (dir : Path) (name : String) (c : Content W) (s : FsState W) :
    ((s.fs.isDir dir && !s.fs.isDir (dir ++ [name])) = true ∧ writeFile dir name c s =
      (.ok (), s.after [s.fs.set (dir ++ [name]) (.file .torn), s.fs.set (dir ++ [name]) (.file c)])) ∨
    ((s.fs.isDir dir && !s.fs.isDir (dir ++ [name])) = false ∧ writeFile dir name c s = (.error .os, s)) := by
  have hrun : writeFile dir name c s = (if (s.fs.isDir dir && !s.fs.isDir (dir ++ [name])) then (do
      fsStep fun fs => fs.set (dir ++ [name]) (.file .torn)
      fsStep fun fs => fs.set (dir ++ [name]) (.file c)) else throw .os : FsM W Unit) s := by
    unfold writeFile
    rw [fs_read_bind]
  cases hg : (s.fs.isDir dir && !s.fs.isDir (dir ++ [name])) with
  | false => rw [hg] at hrun; exact Or.inr ⟨rfl, hrun⟩
  | true =>
    rw [hg] at hrun
    left
    refine ⟨rfl, hrun.trans ?_⟩
    simp only [if_true]
    rw [fs_bind, fsStep_run]
    simp only
    rw [fsStep_run, after_after]
    have : ((s.after [s.fs.set (dir ++ [name]) (.file .torn)]).fs.set (dir ++ [name]) (.file c)) =
        s.fs.set (dir ++ [name]) (.file c) := by
      funext q
      simp only [FsState.after, FS.set, List.getLast?_singleton, Option.getD_some]
      split <;> rfl
    rw [this]
    rfl

end Resistics
