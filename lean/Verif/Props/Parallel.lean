import Verif.Model.Parallel
import Mathlib.Data.List.Basic
import Mathlib.Tactic

/-!
# Property C82: several processes at once

Rely and guarantee: what a program does, whatever the other processes do meanwhile within certain limits.
-/

namespace Resistics
namespace Par

/-! ## Specification -/

/-- At the place or below it. -/
def Below (dir p : Place) : Prop := dir <:+ p

/-- Neither of the two directories is in the other one. -/
def Separate (a b : Place) : Prop := ¬ Below a b ∧ ¬ Below b a

/-- Nothing vanishes: directories stay directories and files stay files. -/
def Grows (d d' : Disk) : Prop := ∀ p, (d p = some .dir → d' p = some .dir) ∧ (∀ t, d p = some (.file t) → ∃ t', d' p = some (.file t'))

/-- The change of a process that works in `dir`: elsewhere it makes missing directories on the way to `dir` and does nothing else. -/
def Within (dir : Place) (d d' : Disk) : Prop := Grows d d' ∧ ∀ p, ¬ Below dir p → d' p = d p ∨ (d p = none ∧ d' p = some .dir ∧ p <:+ dir)

/-- A change by others that leaves alone what is in `dir` and puts no files on the way to it. -/
def Spares (dir : Place) (d d' : Disk) : Prop :=
  Grows d d' ∧ (∀ p, Below dir p → d' p = d p) ∧ ∀ p, p <:+ dir → ∀ t, d' p = some (.file t) → d p = some (.file t)

/-- No file is in the way to `dir`. -/
def Clear (dir : Place) (d : Disk) : Prop := d [] = some .dir ∧ ∀ p, p <:+ dir → ∀ t, d p ≠ some (.file t)

/-- What a file holds after the writes. -/
def bytes (ws : List (ℕ × List Char)) : List Char := ws.foldl put []

/-- Files in `dir`. -/
def saved (dir : Place) (files : List (String × List (ℕ × List Char))) (d : Disk) : Disk := files.foldl (fun b f => b.set (f.1 :: dir) (.file (bytes f.2))) d

/-- The missing ones of the directories in `dir`. -/
def withDirs (dir : Place) (names : List String) (d : Disk) : Disk := fun p => if d p = none ∧ ∃ s ∈ names, p = s :: dir then some .dir else d p

/-- The place that belongs to a job: a directory, or the file of a solution. -/
def Job.home : Job → Place
  | .write _ dir _ => dir
  | .create dir _ => dir
  | .solve dir name _ => name :: dir

/-- What a job makes of a disk. -/
def Job.result (d : Disk) : Job → Disk
  | .write _ dir files => saved dir files (d.set dir .dir)
  | .create dir ws => (withDirs dir subNames (d.set dir .dir)).set (projName :: dir) (.file (bytes ws))
  | .solve dir name ws => d.set (name :: dir) (.file (bytes ws))

/-- The disks on the way to the result: as before, the directory, some of the files in their order, the last one perhaps in part. -/
def Job.Stage (d b : Disk) : Job → Prop
  | .write _ dir files =>
      b = d ∨ b = d.set dir .dir ∨
        ∃ pre name ws rest post, files = pre ++ (name, ws ++ rest) :: post ∧ b = saved dir (pre ++ [(name, ws)]) (d.set dir .dir)
  | .create dir ws =>
      b = d ∨ (∃ pre, pre <+: subNames ∧ b = withDirs dir pre (d.set dir .dir)) ∨
        ∃ ws', ws' <+: ws ∧ b = (withDirs dir subNames (d.set dir .dir)).set (projName :: dir) (.file (bytes ws'))
  | .solve dir name ws => b = d ∨ ∃ ws', ws' <+: ws ∧ b = d.set (name :: dir) (.file (bytes ws'))

/-- The job can be done. -/
def Job.Fine (d : Disk) : Job → Prop
  | .write overwrite dir files => dir ≠ [] ∧ Clear dir d ∧ (d dir = none ∨ overwrite = true) ∧ ∀ f ∈ files, d (f.1 :: dir) ≠ some .dir
  | .create dir _ => dir ≠ [] ∧ Clear dir d ∧ d (projName :: dir) = none
  | .solve dir name _ => d dir = some .dir ∧ d (name :: dir) ≠ some .dir

/-- A program keeps its promises: whatever happens before its turns within `R`, its own changes are within `G` and leave `I` true, and it ends with `Q` or
with an exception and `F`. -/
def Valid (R G : Disk → Disk → Prop) (I Q : Disk → Prop) (F : Err → Disk → Prop) : Prog → Disk → Prop
  | .done, d => Q d
  | .fail e, d => F e d
  | .act eff next, d => ∀ d', R d d' → G d' (eff d') ∧ I (eff d') ∧ Valid R G I Q F (next d') (eff d')

/-- The program ends after at most so many turns. -/
def Ends : ℕ → Prog → Prop
  | _, .done => True
  | _, .fail _ => True
  | 0, .act _ _ => False
  | n + 1, .act _ next => ∀ d, Ends n (next d)

/-! ## Systems -/

section
variable {ι : Type} [DecidableEq ι] {R G : ι → Disk → Disk → Prop} {I Q : ι → Disk → Prop} {F : ι → Err → Disk → Prop}

theorem run_snoc (s : Sys ι) (sched : List ι) (i : ι) : s.run (sched ++ [i]) = (s.run sched).tick i := by
  unfold Sys.run
  rw [List.foldl_append]
  rfl

theorem run_append (s : Sys ι) (a b : List ι) : s.run (a ++ b) = (s.run a).run b := by
  unfold Sys.run
  rw [List.foldl_append]

/-- Processes that keep their promises when the others keep theirs, keep them together. -/
theorem parallel (s : Sys ι) (hrefl : ∀ i d, R i d d) (htrans : ∀ i a b c, R i a b → R i b c → R i a c) (hGR : ∀ i j d d', i ≠ j → G i d d' → R j d d')
    (hI : ∀ i d d', I i d → R i d d' → I i d') (h0 : ∀ i, Valid (R i) (G i) (I i) (Q i) (F i) (s.procs i) s.disk) (hI0 : ∀ i, I i s.disk) (sched : List ι) :
    ∀ i, I i (s.run sched).disk ∧ ∃ d, R i d (s.run sched).disk ∧ Valid (R i) (G i) (I i) (Q i) (F i) ((s.run sched).procs i) d := by
  induction sched using List.reverseRecOn with
  | nil => exact fun i => ⟨hI0 i, s.disk, hrefl i _, h0 i⟩
  | append_singleton sched j ih =>
    rw [run_snoc]
    generalize s.run sched = s' at ih
    intro i
    unfold Sys.tick
    obtain ⟨hi, d, hd, hv⟩ := ih i
    obtain ⟨-, dj, hdj, hvj⟩ := ih j
    cases hp : s'.procs j with
    | done => exact ⟨hi, d, hd, hv⟩
    | fail e => exact ⟨hi, d, hd, hv⟩
    | act eff next =>
      rw [hp] at hvj
      obtain ⟨g1, g2, g3⟩ := hvj s'.disk hdj
      simp only
      by_cases hij : i = j
      · subst hij
        rw [Function.update_self]
        exact ⟨g2, eff s'.disk, hrefl i _, g3⟩
      · rw [Function.update_of_ne hij]
        have := hGR j i _ _ (Ne.symm hij) g1
        exact ⟨hI i _ _ hi this, d, htrans i _ _ _ hd this, hv⟩

end

/-! ## Changes -/

theorem Grows.refl (d : Disk) : Grows d d := fun _ => ⟨id, fun t h => ⟨t, h⟩⟩

theorem Grows.trans {a b c : Disk} (h : Grows a b) (h' : Grows b c) : Grows a c := by
  intro p
  refine ⟨fun hp => (h' p).1 ((h p).1 hp), fun t hp => ?_⟩
  obtain ⟨t', ht⟩ := (h p).2 t hp
  exact (h' p).2 t' ht

theorem Spares.refl (dir : Place) (d : Disk) : Spares dir d d := ⟨.refl d, fun _ _ => rfl, fun _ _ _ h => h⟩

theorem Spares.trans {dir : Place} {a b c : Disk} (h : Spares dir a b) (h' : Spares dir b c) : Spares dir a c :=
  ⟨h.1.trans h'.1, fun p hp => (h'.2.1 p hp).trans (h.2.1 p hp), fun p hp t ht => h.2.2 p hp t (h'.2.2 p hp t ht)⟩

theorem below_both {a b p : Place} (ha : Below a p) (hb : Below b p) : Below a b ∨ Below b a := by
  unfold Below at *
  exact List.suffix_or_suffix_of_suffix ha hb

/-- Working in separate directories. -/
theorem within_spares {a b : Place} (h : Separate a b) {d d' : Disk} (hw : Within a d d') : Spares b d d' := by
  refine ⟨hw.1, ?_, ?_⟩
  · intro p hp
    have hna : ¬ Below a p := fun ha => (below_both ha hp).elim h.1 h.2
    rcases hw.2 p hna with h1 | ⟨-, -, h3⟩
    · exact h1
    · exact absurd (List.IsSuffix.trans hp h3) h.2
  · intro p hp t ht
    have hna : ¬ Below a p := fun ha => h.1 (List.IsSuffix.trans ha hp)
    rcases hw.2 p hna with h1 | ⟨-, h2, -⟩
    · rw [← h1]; exact ht
    · rw [h2] at ht; cases ht

theorem Clear.spares {dir : Place} {d d' : Disk} (h : Clear dir d) (hs : Spares dir d d') : Clear dir d' :=
  ⟨(hs.1 []).1 h.1, fun p hp t ht => h.2 p hp t (hs.2.2 p hp t ht)⟩

/-- In `dir` the disk is as given, and nothing is in the way to it. -/
def At (dir : Place) (base d : Disk) : Prop := Clear dir d ∧ ∀ p, Below dir p → d p = base p

theorem At.spares {dir : Place} {base d d' : Disk} (h : At dir base d) (hs : Spares dir d d') : At dir base d' :=
  ⟨h.1.spares hs, fun p hp => (hs.2.1 p hp).trans (h.2 p hp)⟩

theorem suffix_cons_ne {n : String} {par : Place} : ¬ (n :: par) <:+ par := by
  intro h
  have := h.length_le
  simp at this

/-- Making a directory on the way. -/
theorem make_above {dir : Place} {base d : Disk} {p : Place} (h : At dir base d) (hp : p <:+ dir) (hne : p ≠ dir) (hnone : d p = none) :
    At dir base (d.set p .dir) ∧ Within dir d (d.set p .dir) := by
  have hnb : ¬ Below dir p := fun hb => hne (List.IsSuffix.eq_of_length hp (le_antisymm hp.length_le (List.IsSuffix.length_le hb)))
  refine ⟨⟨⟨?_, ?_⟩, ?_⟩, ?_, ?_⟩
  · unfold Disk.set
    split
    · rfl
    · exact h.1.1
  · intro q hq t ht
    unfold Disk.set at ht
    split at ht
    · cases ht
    · exact h.1.2 q hq t ht
  · intro q hq
    unfold Disk.set
    rw [if_neg (by rintro rfl; exact hnb hq)]
    exact h.2 q hq
  · intro q
    unfold Disk.set
    by_cases hqp : q = p
    · subst hqp
      rw [hnone]
      exact ⟨(fun h => nomatch h), (fun t h => nomatch h)⟩
    · rw [if_neg hqp]
      exact ⟨id, fun t h => ⟨t, h⟩⟩
  · intro q _
    unfold Disk.set
    by_cases hqp : q = p
    · subst hqp
      rw [if_pos rfl]
      exact Or.inr ⟨hnone, rfl, hp⟩
    · rw [if_neg hqp]
      exact Or.inl rfl

theorem Within.refl (dir : Place) (d : Disk) : Within dir d d := ⟨.refl d, fun _ _ => Or.inl rfl⟩

/-- A change in `dir`. -/
theorem set_below {dir : Place} {base d : Disk} {p : Place} {n : DNode} (h : At dir base d) (hp : Below dir p) (hd : d p = some .dir → n = .dir)
    (hf : ∀ t, d p = some (.file t) → ∃ t', n = .file t') (hn : p = dir → n = .dir) : At dir (base.set p n) (d.set p n) ∧ Within dir d (d.set p n) := by
  have hroot : p = [] → n = .dir := fun h0 => hn (by
    subst h0
    exact (List.suffix_nil.1 hp).symm)
  refine ⟨⟨⟨?_, ?_⟩, ?_⟩, ?_, ?_⟩
  · unfold Disk.set
    split
    · rename_i h0
      rw [hroot h0.symm]
    · exact h.1.1
  · intro q hq t ht
    unfold Disk.set at ht
    split at ht
    · rename_i h0
      subst h0
      have : q = dir := List.IsSuffix.eq_of_length hq (le_antisymm hq.length_le (List.IsSuffix.length_le hp))
      rw [hn this] at ht
      cases ht
    · exact h.1.2 q hq t ht
  · intro q hq
    unfold Disk.set
    split
    · rfl
    · exact h.2 q hq
  · intro q
    unfold Disk.set
    by_cases hqp : q = p
    · subst hqp
      rw [if_pos rfl]
      refine ⟨fun hq => by rw [hd hq], fun t ht => ?_⟩
      obtain ⟨t', ht'⟩ := hf t ht
      exact ⟨t', by rw [ht']⟩
    · rw [if_neg hqp]
      exact ⟨id, fun t h => ⟨t, h⟩⟩
  · intro q hq
    unfold Disk.set
    rw [if_neg (by rintro rfl; exact hq hp)]
    exact Or.inl rfl

/-! ## Programs -/

section
variable {dir : Place} {I Q : Disk → Prop} {F : Err → Disk → Prop}

/-- The promises of a program that works in `dir` while others spare it. -/
abbrev Works (dir : Place) (I Q : Disk → Prop) (F : Err → Disk → Prop) (p : Prog) (d : Disk) : Prop := Valid (Spares dir) (Within dir) I Q F p d

theorem works_look {p : Place} {k : Option DNode → Prog} {d : Disk}
    (h : ∀ d', Spares dir d d' → I d' ∧ Works dir I Q F (k (d' p)) d') : Works dir I Q F (look p k) d :=
  fun d' hd => ⟨Within.refl _ _, (h d' hd).1, (h d' hd).2⟩

/-- The directory is there, whoever made it. -/
theorem works_there {base : Disk} (hI : ∀ d, At dir base d → I d) (q : Place) (k : Prog) (hk : ∀ d, At dir base d → d q = some .dir → Works dir I Q F k d)
    (d : Disk) (h : At dir base d) (hd : d q = some .dir) : Works dir I Q F (whenThere q true k) d := by
  unfold whenThere
  rw [if_pos rfl]
  refine works_look fun d' hd' => ?_
  have h' := h.spares hd'
  have hq := (hd'.1 q).1 hd
  refine ⟨hI d' h', ?_⟩
  rw [if_pos hq]
  exact hk d' h' hq

/-- Making a directory above `dir` that may be there. -/
theorem works_parents {base : Disk} (hI : ∀ d, At dir base d → I d) (p : Place) (hp : p <:+ dir) (hne : p ≠ dir) (k : Prog)
    (hk : ∀ d, At dir base d → d p = some .dir → Works dir I Q F k d) (d : Disk) (h : At dir base d) : Works dir I Q F (mkParents p true k) d := by
  induction p generalizing k d with
  | nil =>
    have := works_there hI [] k hk d h h.1.1
    simpa only [mkParents] using this
  | cons n par ih =>
    have hpar : par <:+ dir := List.IsSuffix.trans (List.suffix_cons n par) hp
    have hparne : par ≠ dir := by
      rintro rfl
      exact suffix_cons_ne hp
    have step : ∀ (missing : Prog) (d' : Disk), At dir base d' → (d' (n :: par) = some .dir ∨ d' par = some .dir) →
        Within dir d' (if canMake d' n par then d'.set (n :: par) .dir else d') ∧ I (if canMake d' n par then d'.set (n :: par) .dir else d') ∧
        Works dir I Q F (if (d' (n :: par)).isSome then whenThere (n :: par) true k else if d' par = some .dir then k else if d' par = none then missing
            else whenThere (n :: par) true k) (if canMake d' n par then d'.set (n :: par) .dir else d') := by
      intro missing d' h' hd'
      by_cases hn : d' (n :: par) = some .dir
      · have hc : canMake d' n par = false := by simp [canMake, hn]
        simp only [hc, hn, Option.isSome_some, if_true, Bool.false_eq_true, if_false]
        exact ⟨Within.refl _ _, hI _ h', works_there hI _ k hk d' h' hn⟩
      · have hd'' := hd'.resolve_left hn
        have hn' : d' (n :: par) = none := by
          cases hx : d' (n :: par) with
          | none => rfl
          | some x =>
            cases x with
            | dir => exact absurd hx hn
            | file t => exact absurd hx (h'.1.2 _ hp t)
        have hc : canMake d' n par = true := by simp [canMake, hn', hd'']
        simp only [hc, if_true, hn', Option.isSome_none, Bool.false_eq_true, if_false, hd'']
        obtain ⟨a, b⟩ := make_above h' hp hne hn'
        exact ⟨b, hI _ a, hk _ a (by simp [Disk.set])⟩
    unfold mkParents
    intro d' hs
    have h' := h.spares hs
    by_cases hc0 : d' (n :: par) = some .dir ∨ d' par = some .dir
    · exact step _ d' h' hc0
    · push Not at hc0
      have hn' : d' (n :: par) = none := by
        cases hx : d' (n :: par) with
        | none => rfl
        | some x =>
          cases x with
          | dir => exact absurd hx hc0.1
          | file t => exact absurd hx (h'.1.2 _ hp t)
      have hnone : d' par = none := by
        cases hx : d' par with
        | none => rfl
        | some x =>
          cases x with
          | dir => exact absurd hx hc0.2
          | file t => exact absurd hx (h'.1.2 _ hpar t)
      have hc : canMake d' n par = false := by simp [canMake, hnone]
      simp only [hc, Bool.false_eq_true, if_false, hn', Option.isSome_none, hnone, reduceCtorEq, if_true]
      refine ⟨Within.refl _ _, hI _ h', ih hpar hparne _ ?_ d' h'⟩
      intro d2 h2 hd2 d3 hs3
      exact step _ d3 (h2.spares hs3) (Or.inr ((hs3.1 par).1 hd2))

/-- Making `dir` itself, with the directories on the way. -/
theorem works_make {base : Disk} (hI : ∀ d, At dir base d → I d) (hI' : ∀ d, At dir (base.set dir .dir) d → I d) (hdir : dir ≠ []) (hnone : base dir = none) (k : Prog)
    (hk : ∀ d, At dir (base.set dir .dir) d → Works dir I Q F k d) (d : Disk) (h : At dir base d) : Works dir I Q F (mkParents dir false k) d := by
  cases hd0 : dir with
  | nil => exact absurd hd0 hdir
  | cons n par =>
    rw [← hd0]
    have hpar : par <:+ dir := by rw [hd0]; exact List.suffix_cons n par
    have hparne : par ≠ dir := by
      rw [hd0]
      intro h0
      have := congrArg List.length h0
      simp at this
    have made : ∀ d', At dir base d' → d' par = some .dir → ∀ (missing other : Prog),
        Within dir d' (if canMake d' n par then d'.set (n :: par) .dir else d') ∧ I (if canMake d' n par then d'.set (n :: par) .dir else d') ∧
        Works dir I Q F (if (d' (n :: par)).isSome then other else if d' par = some .dir then k else if d' par = none then missing else other)
          (if canMake d' n par then d'.set (n :: par) .dir else d') := by
      intro d' h' hd' missing other
      have hn : d' (n :: par) = none := by
        rw [← hd0, h'.2 dir (List.suffix_refl dir)]
        exact hnone
      have hc : canMake d' n par = true := by simp [canMake, hn, hd']
      simp only [hc, if_true, hn, Option.isSome_none, Bool.false_eq_true, if_false, hd']
      obtain ⟨a, b⟩ := set_below (n := .dir) h' (List.suffix_refl dir) (fun _ => rfl) (fun t ht => by rw [hd0, hn] at ht; cases ht) (fun _ => rfl)
      rw [← hd0]
      exact ⟨b, hI' _ a, hk _ a⟩
    rw [hd0]
    unfold mkParents
    rw [← hd0]
    intro d' hs
    have h' := h.spares hs
    by_cases hd' : d' par = some .dir
    · exact made d' h' hd' _ _
    · have hn : d' (n :: par) = none := by
        rw [← hd0, h'.2 dir (List.suffix_refl dir)]
        exact hnone
      have hnp : d' par = none := by
        cases hx : d' par with
        | none => rfl
        | some x =>
          cases x with
          | dir => exact absurd hx hd'
          | file t => exact absurd hx (h'.1.2 _ hpar t)
      have hc : canMake d' n par = false := by simp [canMake, hn, hnp]
      simp only [hc, Bool.false_eq_true, if_false, hn, Option.isSome_none, hnp, reduceCtorEq, if_true]
      refine ⟨Within.refl _ _, hI _ h', works_parents hI par hpar hparne _ ?_ d' h'⟩
      intro d2 h2 hd2 d3 hs3
      exact made d3 (h2.spares hs3) ((hs3.1 par).1 hd2) _ _

/-- In `home` the disk is as given. -/
def Same (home : Place) (base d : Disk) : Prop := ∀ p, Below home p → d p = base p

theorem Same.spares {home : Place} {base d d' : Disk} (h : Same home base d) (hs : Spares home d d') : Same home base d' :=
  fun p hp => (hs.2.1 p hp).trans (h p hp)

theorem set_set (d : Disk) (p : Place) (x y : DNode) : (d.set p x).set p y = d.set p y := by
  funext q
  unfold Disk.set
  split <;> rfl

theorem set_self (d : Disk) (p : Place) (x : DNode) : d.set p x p = some x := by
  unfold Disk.set
  rw [if_pos rfl]

theorem set_ne (d : Disk) {p q : Place} (x : DNode) (h : q ≠ p) : d.set p x q = d q := by
  unfold Disk.set
  rw [if_neg h]

theorem Same.set {home : Place} {base d : Disk} (h : Same home base d) (p : Place) (x : DNode) : Same home (base.set p x) (d.set p x) := by
  intro q hq
  unfold Disk.set
  split
  · rfl
  · exact h q hq

/-- Making a file, or changing it. -/
theorem set_file {home : Place} {d : Disk} {p : Place} (hp : Below home p) (hd : d p ≠ some .dir) (t : List Char) : Within home d (d.set p (.file t)) := by
  refine ⟨?_, ?_⟩
  · intro q
    by_cases hqp : q = p
    · subst hqp
      rw [set_self]
      exact ⟨fun h => absurd h hd, fun t' _ => ⟨t, rfl⟩⟩
    · rw [set_ne _ _ hqp]
      exact ⟨id, fun t h => ⟨t, h⟩⟩
  · intro q hq
    rw [set_ne _ _ (by rintro rfl; exact hq hp)]
    exact Or.inl rfl

theorem works_writes {home p q : Place} (hp : Below home p) (b : Disk) (k : Prog) (ws : List (ℕ × List Char)) : ∀ (t : List Char),
    (∀ ws', ws' <+: ws → ∀ d, Same home (b.set p (.file (ws'.foldl put t))) d → I d) →
    (∀ d, Same home (b.set p (.file (ws.foldl put t))) d → d q = some .dir → Works home I Q F k d) →
    ∀ d, Same home (b.set p (.file t)) d → d q = some .dir → Works home I Q F (writes p ws k) d := by
  induction ws with
  | nil => exact fun t _ hk d h hq => hk d h hq
  | cons w ws ih =>
    intro t hI hk d h hq d' hs
    have h' := h.spares hs
    have hq' := (hs.1 q).1 hq
    have ht : d' p = some (.file t) := by rw [h' p hp, set_self]
    have hput : putFile d' p w = d'.set p (.file (put t w)) := by
      unfold putFile
      rw [ht]
    have hw := set_file hp (d := d') (by rw [ht]; simp) (put t w)
    have hsame : Same home (b.set p (.file (put t w))) (d'.set p (.file (put t w))) := by
      have := h'.set p (.file (put t w))
      rwa [set_set] at this
    simp only [hput]
    refine ⟨hw, hI [w] (by simp) _ hsame, ih (put t w) ?_ ?_ _ hsame ((hw.1 q).1 hq')⟩
    · exact fun ws' hws d hd => hI (w :: ws') (by simpa using hws) d hd
    · exact fun d hd => hk d hd

theorem works_save {home dir : Place} {name : String} (hp : Below home (name :: dir)) (b : Disk) (hb : b (name :: dir) ≠ some .dir) (k : Prog) (ws : List (ℕ × List Char))
    (hI : ∀ ws', ws' <+: ws → ∀ d, Same home (b.set (name :: dir) (.file (bytes ws'))) d → I d)
    (hk : ∀ d, Same home (b.set (name :: dir) (.file (bytes ws))) d → d dir = some .dir → Works home I Q F k d)
    (d : Disk) (h : Same home b d) (hd : d dir = some .dir) : Works home I Q F (saveFile name dir ws k) d := by
  intro d' hs
  have h' := h.spares hs
  have hd' := (hs.1 dir).1 hd
  have hn : d' (name :: dir) ≠ some .dir := by rw [h' _ hp]; exact hb
  have hc : canOpen d' name dir = true := by simp [canOpen, hd', hn]
  simp only [hc, if_true]
  have hw := set_file hp hn []
  exact ⟨hw, hI [] (List.nil_prefix) _ (h'.set _ _), works_writes hp b k ws [] hI hk _ (h'.set _ _) ((hw.1 dir).1 hd')⟩

theorem saved_cons (dir : Place) (f : String × List (ℕ × List Char)) (fs : List (String × List (ℕ × List Char))) (d : Disk) :
    saved dir (f :: fs) d = saved dir fs (d.set (f.1 :: dir) (.file (bytes f.2))) := rfl

theorem works_files (files : List (String × List (ℕ × List Char))) : ∀ (b : Disk), (∀ f ∈ files, b (f.1 :: dir) ≠ some .dir) →
    (∀ pre name ws rest post, files = pre ++ (name, ws ++ rest) :: post → ∀ d, Same dir (saved dir (pre ++ [(name, ws)]) b) d → I d) →
    (∀ d, Same dir (saved dir files b) d → Q d) →
    ∀ d, Same dir b d → d dir = some .dir → Works dir I Q F (saveFiles dir files) d := by
  induction files with
  | nil => exact fun b _ _ hQ d h _ => hQ d h
  | cons f fs ih =>
    intro b hb hI hQ d h hd
    refine works_save (List.suffix_cons _ _) b (hb f (List.mem_cons_self)) _ f.2 ?_ ?_ d h hd
    · rintro ws' ⟨rest, hr⟩ d2 h2
      exact hI [] f.1 ws' rest fs (by rw [hr]; rfl) d2 h2
    · intro d2 h2 hd2
      refine ih (b.set (f.1 :: dir) (.file (bytes f.2))) ?_ ?_ hQ d2 h2 hd2
      · intro g hg
        by_cases he : g.1 = f.1
        · rw [he, set_self]; simp
        · rw [set_ne _ _ (by simpa using he)]
          exact hb g (List.mem_cons_of_mem _ hg)
      · intro pre name ws rest post hfs d3 h3
        exact hI (f :: pre) name ws rest post (by rw [hfs]; rfl) d3 h3

theorem withDirs_nil (d : Disk) : withDirs dir [] d = d := by
  funext p
  simp [withDirs]

theorem withDirs_cons (s : String) (ss : List String) (d : Disk) : withDirs dir (s :: ss) d = withDirs dir ss (withDirs dir [s] d) := by
  funext p
  unfold withDirs
  by_cases h : d p = none ∧ ∃ s' ∈ [s], p = s' :: dir
  · obtain ⟨h1, s', h2, h3⟩ := h
    simp only [List.mem_singleton] at h2
    subst h2
    simp [h3]
    intro h; simp_all
  · simp only [h, if_false]
    simp only [List.mem_singleton, exists_eq_left, not_and] at h
    by_cases h1 : d p = none
    · have := h h1
      simp [h1, this]
    · simp [h1]

theorem withDirs_other (names : List String) (d : Disk) (p : Place) (h : ∀ s ∈ names, p ≠ s :: dir) : withDirs dir names d p = d p := by
  unfold withDirs
  rw [if_neg]
  rintro ⟨-, s, hs, he⟩
  exact h s hs he

theorem works_subs (k : Prog) (ss : List String) : ∀ (b : Disk), (∀ pre, pre <+: ss → ∀ d, Same dir (withDirs dir pre b) d → I d) →
    (∀ d, Same dir (withDirs dir ss b) d → d dir = some .dir → Works dir I Q F k d) →
    ∀ d, Same dir b d → d dir = some .dir → Works dir I Q F (makeSubs dir k ss) d := by
  induction ss with
  | nil =>
    intro b hI hk d h hd
    exact hk d (by rw [withDirs_nil]; exact h) hd
  | cons s ss ih =>
    intro b hI hk d h hd
    have hnext : ∀ d, Same dir (withDirs dir [s] b) d → d dir = some .dir → Works dir I Q F (makeSubs dir k ss) d := by
      refine ih (withDirs dir [s] b) ?_ ?_
      · intro pre hpre d2 h2
        exact hI (s :: pre) (by simpa using hpre) d2 (by rw [withDirs_cons]; exact h2)
      · intro d2 h2
        exact hk d2 (by rw [withDirs_cons]; exact h2)
    refine works_look fun d' hs => ⟨hI [] List.nil_prefix d' (by rw [withDirs_nil]; exact h.spares hs), ?_⟩
    have h' := h.spares hs
    have hd' := (hs.1 dir).1 hd
    have hb : d' (s :: dir) = b (s :: dir) := h' _ (List.suffix_cons _ _)
    cases hx : b (s :: dir) with
    | some x =>
      rw [hb, hx]
      simp only [Option.isNone_some, Bool.false_eq_true, if_false]
      have hw : withDirs dir [s] b = b := by
        funext p
        unfold withDirs
        rw [if_neg]
        rintro ⟨h1, s', h2, h3⟩
        simp only [List.mem_singleton] at h2
        rw [h3, h2, hx] at h1
        cases h1
      exact hnext d' (by rw [hw]; exact h') hd'
    | none =>
      rw [hb, hx]
      simp only [Option.isNone_none, if_true]
      have hw : withDirs dir [s] b = b.set (s :: dir) .dir := by
        funext p
        unfold withDirs Disk.set
        by_cases hp : p = s :: dir
        · simp [hp, hx]
        · simp [hp]
      intro d2 hs2
      have h2 := h'.spares hs2
      have hd2 := (hs2.1 dir).1 hd'
      have hn : d2 (s :: dir) = none := by rw [h2 _ (List.suffix_cons _ _), hx]
      have hc : canMake d2 s dir = true := by simp [canMake, hn, hd2]
      simp only [hc, if_true, hn, Option.isSome_none, Bool.false_eq_true, if_false, hd2]
      have hsame : Same dir (withDirs dir [s] b) (d2.set (s :: dir) .dir) := by rw [hw]; exact h2.set _ _
      refine ⟨⟨?_, ?_⟩, hI [s] (by simp) _ hsame, hnext _ hsame ?_⟩
      · intro q
        by_cases hq : q = s :: dir
        · subst hq
          rw [set_self, hn]
          exact ⟨fun _ => rfl, (fun t h => nomatch h)⟩
        · rw [set_ne _ _ hq]
          exact ⟨id, fun t h => ⟨t, h⟩⟩
      · intro q hq
        rw [set_ne _ _ (by rintro rfl; exact hq (List.suffix_cons _ _))]
        exact Or.inl rfl
      · rw [set_ne _ _ (by intro h0; have := congrArg List.length h0; simp at this)]
        exact hd2

end

end Par
end Resistics
