import Verif.Props.Parallel

/-!
# Property C82: what the jobs do together
-/

namespace Resistics
namespace Par

/-! ## A job among others that spare its place -/

theorem below_cons_ne (n : String) (dir : Place) : n :: dir ≠ dir := by
  intro h
  have := congrArg List.length h
  simp at this

theorem At.same {dir : Place} {base d : Disk} (h : At dir base d) : Same dir base d := h.2

theorem clear_at {dir : Place} {d : Disk} (h : Clear dir d) : At dir d d := ⟨h, fun _ _ => rfl⟩

theorem set_dir_self {dir : Place} {d : Disk} (h : d dir = some .dir) : d.set dir .dir = d := by
  funext p
  unfold Disk.set
  split
  · rename_i hp
    rw [hp, h]
  · rfl

theorem clear_dir {dir : Place} {d : Disk} (h : Clear dir d) : d dir = none ∨ d dir = some .dir := by
  cases hx : d dir with
  | none => exact Or.inl rfl
  | some x =>
    cases x with
    | dir => exact Or.inr rfl
    | file t => exact absurd hx (h.2 dir (List.suffix_refl dir) t)

section
variable {dir : Place} {I Q : Disk → Prop} {F : Err → Disk → Prop}

/-- A look at the directory itself: it is what it was. -/
theorem works_see {base : Disk} (hI : ∀ d, At dir base d → I d) {p : Place} (hp : Below dir p) {k : Option DNode → Prog} {d : Disk} (h : At dir base d)
    (hk : ∀ d', At dir base d' → Works dir I Q F (k (base p)) d') : Works dir I Q F (look p k) d :=
  works_look fun d' hs => ⟨hI d' (h.spares hs), by
    have h' := h.spares hs
    rw [h'.2 p hp]
    exact hk d' h'⟩

theorem works_writer (d0 : Disk) (overwrite : Bool) (files : List (String × List (ℕ × List Char))) (hd : dir ≠ []) (hc : Clear dir d0)
    (ho : d0 dir = none ∨ overwrite = true) (hf : ∀ f ∈ files, d0 (f.1 :: dir) ≠ some .dir) :
    Works dir (fun d => ∃ b, (Job.write overwrite dir files).Stage d0 b ∧ Same dir b d) (Same dir ((Job.write overwrite dir files).result d0)) (fun _ _ => False)
      (writer overwrite dir files) d0 := by
  have hself : Below dir dir := List.suffix_refl dir
  have hI : ∀ d, At dir d0 d → ∃ b, (Job.write overwrite dir files).Stage d0 b ∧ Same dir b d := fun d h => ⟨d0, Or.inl rfl, h.2⟩
  have hI' : ∀ d, At dir (d0.set dir .dir) d → ∃ b, (Job.write overwrite dir files).Stage d0 b ∧ Same dir b d := fun d h => ⟨_, Or.inr (Or.inl rfl), h.2⟩
  have hrest : ∀ d, At dir (d0.set dir .dir) d →
      Works dir (fun d => ∃ b, (Job.write overwrite dir files).Stage d0 b ∧ Same dir b d) (Same dir ((Job.write overwrite dir files).result d0)) (fun _ _ => False)
        (saveFiles dir files) d := by
    intro d h
    refine works_files files (d0.set dir .dir) ?_ ?_ (fun d h => h) d h.2 (by rw [h.2 dir hself, set_self])
    · intro f hfm
      rw [set_ne _ _ (below_cons_ne _ _)]
      exact hf f hfm
    · intro pre name ws rest post he d2 h2
      exact ⟨_, Or.inr (Or.inr ⟨pre, name, ws, rest, post, he, rfl⟩), h2⟩
  unfold writer checkPlace
  refine works_see hI hself (clear_at hc) fun d1 h1 => ?_
  rcases clear_dir hc with hn | hn
  · rw [hn]
    simp only [Option.isSome_none, Bool.false_and, Bool.false_eq_true, if_false]
    refine works_see hI hself h1 fun d2 h2 => works_see hI hself h2 fun d3 h3 => ?_
    rw [hn]
    simp only [Option.isNone_none, if_true]
    exact works_make hI hI' hd hn _ hrest d3 h3
  · have hov : overwrite = true := ho.resolve_left (by rw [hn]; simp)
    subst hov
    rw [hn]
    simp only [Bool.not_true, Bool.and_false, Bool.false_eq_true, if_false]
    refine works_see hI hself h1 fun d2 h2 => works_see hI hself h2 fun d3 h3 => ?_
    rw [hn]
    simp only [Option.isNone_some, Bool.false_eq_true, if_false]
    exact hrest d3 (by rw [set_dir_self hn]; exact h3)

theorem works_creator (d0 : Disk) (ws : List (ℕ × List Char)) (hd : dir ≠ []) (hc : Clear dir d0) (hp : d0 (projName :: dir) = none) :
    Works dir (fun d => ∃ b, (Job.create dir ws).Stage d0 b ∧ Same dir b d) (Same dir ((Job.create dir ws).result d0)) (fun _ _ => False) (creator dir ws) d0 := by
  have hself : Below dir dir := List.suffix_refl dir
  have hI : ∀ d, At dir d0 d → ∃ b, (Job.create dir ws).Stage d0 b ∧ Same dir b d := fun d h => ⟨d0, Or.inl rfl, h.2⟩
  have hI' : ∀ d, At dir (d0.set dir .dir) d → ∃ b, (Job.create dir ws).Stage d0 b ∧ Same dir b d :=
    fun d h => ⟨_, Or.inr (Or.inl ⟨[], List.nil_prefix, by rw [withDirs_nil]⟩), h.2⟩
  have hproj : (withDirs dir subNames (d0.set dir .dir)) (projName :: dir) = none := by
    rw [withDirs_other, set_ne _ _ (below_cons_ne _ _)]
    · exact hp
    · intro s hs he
      have hn : projName ∉ subNames := by decide
      exact hn (by rw [(List.cons.inj he).1]; exact hs)
  have hrest : ∀ d, At dir (d0.set dir .dir) d →
      Works dir (fun d => ∃ b, (Job.create dir ws).Stage d0 b ∧ Same dir b d) (Same dir ((Job.create dir ws).result d0)) (fun _ _ => False) (fillProject dir ws) d := by
    intro d h
    unfold fillProject
    refine works_subs _ subNames (d0.set dir .dir) ?_ ?_ d h.2 (by rw [h.2 dir hself, set_self])
    · intro pre hpre d2 h2
      exact ⟨_, Or.inr (Or.inl ⟨pre, hpre, rfl⟩), h2⟩
    · intro d2 h2 hd2
      refine works_save (List.suffix_cons _ _) _ (by rw [hproj]; simp) .done ws ?_ (fun d h _ => h) d2 h2 hd2
      intro ws' hws d3 h3
      exact ⟨_, Or.inr (Or.inr ⟨ws', hws, rfl⟩), h3⟩
  have henter : ∀ d, At dir d0 d →
      Works dir (fun d => ∃ b, (Job.create dir ws).Stage d0 b ∧ Same dir b d) (Same dir ((Job.create dir ws).result d0)) (fun _ _ => False) (enterProject dir ws) d := by
    intro d h
    unfold enterProject
    refine works_see hI hself h fun d1 h1 => ?_
    rcases clear_dir hc with hn | hn
    · rw [hn]
      simp only [Option.isSome_none, Bool.false_eq_true, if_false]
      exact works_make hI hI' hd hn _ hrest d1 h1
    · rw [hn]
      simp only [Option.isSome_some, if_true]
      refine works_see hI hself h1 fun d2 h2 => ?_
      rw [hn]
      simp only [Option.isNone_some, Bool.false_eq_true, if_false]
      refine works_see hI hself h2 fun d3 h3 => ?_
      rw [hn]
      simp only [if_true]
      exact hrest d3 (by rw [set_dir_self hn]; exact h3)
  unfold creator
  refine works_see hI hself (clear_at hc) fun d1 h1 => ?_
  rcases clear_dir hc with hn | hn
  · rw [hn]
    simp only [Option.isNone_none, if_true]
    exact henter d1 h1
  · rw [hn]
    simp only [Option.isNone_some, Bool.false_eq_true, if_false]
    refine works_see hI hself h1 fun d2 h2 => ?_
    rw [hn]
    simp only [Option.isNone_some, Bool.false_eq_true, if_false]
    refine works_see hI hself h2 fun d3 h3 => ?_
    rw [hn]
    simp only [ne_eq, not_true_eq_false, if_false]
    refine works_see hI (List.suffix_cons _ _) h3 fun d4 h4 => ?_
    rw [hp]
    simp only [Option.isSome_none, Bool.false_eq_true, if_false]
    exact henter d4 h4

theorem works_solver (d0 : Disk) (name : String) (ws : List (ℕ × List Char)) (hd : d0 dir = some .dir) (hn : d0 (name :: dir) ≠ some .dir) :
    Works (name :: dir) (fun d => ∃ b, (Job.solve dir name ws).Stage d0 b ∧ Same (name :: dir) b d) (Same (name :: dir) ((Job.solve dir name ws).result d0))
      (fun _ _ => False) (solver dir name ws) d0 := by
  unfold solver
  refine works_look fun d' hs => ⟨⟨d0, Or.inl rfl, hs.2.1⟩, ?_⟩
  have hd' := (hs.1 dir).1 hd
  rw [hd']
  simp only [Option.isNone_some, Bool.false_eq_true, if_false]
  refine works_save (List.suffix_refl _) d0 hn .done ws ?_ (fun d h _ => h) d' hs.2.1 hd'
  exact fun ws' hws d3 h3 => ⟨_, Or.inr ⟨ws', hws, rfl⟩, h3⟩

end

theorem job_works (j : Job) (d0 : Disk) (h : j.Fine d0) :
    Works j.home (fun d => ∃ b, j.Stage d0 b ∧ Same j.home b d) (Same j.home (j.result d0)) (fun _ _ => False) j.prog d0 := by
  cases j with
  | write o dir files => exact works_writer d0 o files h.1 h.2.1 h.2.2.1 h.2.2.2
  | create dir ws => exact works_creator d0 ws h.1 h.2.1 h.2.2
  | solve dir name ws => exact works_solver d0 name ws h.1 h.2

/-! ## A job among any others -/

/-- The promises of any job whatever the others do. -/
abbrev Keeps (home : Place) (p : Prog) (d : Disk) : Prop := Valid (fun _ _ => True) (Within home) (fun _ => True) (fun _ => True) (fun _ _ => True) p d

section
variable {home : Place}

theorem keeps_look {p : Place} {k : Option DNode → Prog} {d : Disk} (h : ∀ x d', Keeps home (k x) d') : Keeps home (look p k) d :=
  fun d' _ => ⟨Within.refl _ _, trivial, h _ d'⟩

theorem keeps_mkdir {n : String} {par : Place} (hp : (n :: par) <:+ home ∨ Below home (n :: par)) {made missing other : Prog} (h1 : ∀ d, Keeps home made d)
    (h2 : ∀ d, Keeps home missing d) (h3 : ∀ d, Keeps home other d) (d : Disk) : Keeps home (mkdirOnce n par made missing other) d := by
  intro d' _
  refine ⟨?_, trivial, ?_⟩ <;> beta_reduce
  · by_cases hc : canMake d' n par = true
    · rw [if_pos hc]
      have hn : d' (n :: par) = none := by
        unfold canMake at hc
        simp only [Bool.and_eq_true, decide_eq_true_eq] at hc
        exact hc.1
      refine ⟨?_, ?_⟩
      · intro q
        by_cases hq : q = n :: par
        · subst hq
          rw [hn]
          exact ⟨(fun h => nomatch h), (fun t h => nomatch h)⟩
        · rw [set_ne _ _ hq]
          exact ⟨id, fun t h => ⟨t, h⟩⟩
      · intro q hq
        by_cases hqp : q = n :: par
        · subst hqp
          rw [set_self]
          exact Or.inr ⟨hn, rfl, hp.resolve_right hq⟩
        · rw [set_ne _ _ hqp]
          exact Or.inl rfl
    · rw [if_neg hc]
      exact Within.refl _ _
  · generalize (if canMake d' n par = true then d'.set (n :: par) DNode.dir else d') = d2
    split_ifs
    · exact h3 _
    · exact h1 _
    · exact h2 _
    · exact h3 _

theorem keeps_fail (e : Err) (d : Disk) : Keeps home (.fail e) d := trivial

theorem keeps_there (p : Place) (b : Bool) {k : Prog} (hk : ∀ d, Keeps home k d) (d : Disk) : Keeps home (whenThere p b k) d := by
  unfold whenThere
  split
  · exact keeps_look fun x d' => by
      split
      · exact hk _
      · trivial
  · trivial

theorem keeps_parents (p : Place) (hp : p <:+ home) : ∀ (b : Bool) (k : Prog), (∀ d, Keeps home k d) → ∀ d, Keeps home (mkParents p b k) d := by
  induction p with
  | nil => exact fun b k hk d => keeps_there [] b hk d
  | cons n par ih =>
    intro b k hk d
    have hpar : par <:+ home := List.IsSuffix.trans (List.suffix_cons n par) hp
    unfold mkParents
    refine keeps_mkdir (Or.inl hp) hk ?_ (keeps_there _ b hk) d
    exact ih hpar true _ (keeps_mkdir (Or.inl hp) hk (keeps_fail _) (keeps_there _ b hk))

theorem keeps_writes {p : Place} (hp : Below home p) {k : Prog} (hk : ∀ d, Keeps home k d) (ws : List (ℕ × List Char)) : ∀ d, Keeps home (writes p ws k) d := by
  induction ws with
  | nil => exact hk
  | cons w ws ih =>
    intro d d' _
    refine ⟨?_, trivial, ih _⟩
    show Within home d' (putFile d' p w)
    unfold putFile
    split
    · rename_i old ho
      exact set_file hp (by rw [ho]; simp) _
    · exact Within.refl _ _

theorem keeps_save {n : String} {dir : Place} (hp : Below home (n :: dir)) {k : Prog} (hk : ∀ d, Keeps home k d) (ws : List (ℕ × List Char)) (d : Disk) :
    Keeps home (saveFile n dir ws k) d := by
  intro d' _
  refine ⟨?_, trivial, ?_⟩ <;> beta_reduce
  · by_cases hc : canOpen d' n dir = true
    · rw [if_pos hc]
      unfold canOpen at hc
      simp only [Bool.and_eq_true, decide_eq_true_eq] at hc
      exact set_file hp hc.2 _
    · rw [if_neg hc]
      exact Within.refl _ _
  · split
    · exact keeps_writes hp hk ws _
    · trivial

theorem keeps_files (files : List (String × List (ℕ × List Char))) : ∀ d, Keeps home (saveFiles home files) d := by
  induction files with
  | nil => exact fun _ => trivial
  | cons f fs ih => exact keeps_save (List.suffix_cons _ _) ih f.2

theorem keeps_subs {k : Prog} (hk : ∀ d, Keeps home k d) (ss : List String) : ∀ d, Keeps home (makeSubs home k ss) d := by
  induction ss with
  | nil => exact hk
  | cons s ss ih =>
    intro d
    refine keeps_look fun x d' => ?_
    split
    · exact keeps_mkdir (Or.inr (List.suffix_cons _ _)) ih (keeps_fail _) (keeps_fail _) d'
    · exact ih d'

end

/-- Whatever the others do, a job only makes missing directories on the way to its place, and all else that it does is in its place. -/
theorem job_keeps (j : Job) (d : Disk) : Keeps j.home j.prog d := by
  cases j with
  | write o dir files =>
    show Keeps dir (writer o dir files) d
    unfold writer checkPlace
    refine keeps_look fun a d1 => ?_
    split
    · trivial
    · refine keeps_look fun _ d2 => keeps_look fun c d3 => ?_
      split
      · exact keeps_parents dir (List.suffix_refl _) false _ (keeps_files files) d3
      · exact keeps_files files d3
  | create dir ws =>
    have hfill : ∀ d, Keeps dir (fillProject dir ws) d := keeps_subs (keeps_save (k := .done) (List.suffix_cons _ _) (fun _ => trivial) ws) _
    have henter : ∀ d, Keeps dir (enterProject dir ws) d := by
      intro d
      unfold enterProject
      refine keeps_look fun a d1 => ?_
      split
      · refine keeps_look fun b d2 => ?_
        split
        · trivial
        · refine keeps_look fun c d3 => ?_
          split
          · exact hfill _
          · trivial
      · exact keeps_parents dir (List.suffix_refl _) false _ hfill d1
    show Keeps dir (creator dir ws) d
    unfold creator
    refine keeps_look fun a d1 => ?_
    split
    · exact henter _
    · refine keeps_look fun b d2 => ?_
      split
      · exact henter _
      · refine keeps_look fun c d3 => ?_
        split
        · exact henter _
        · refine keeps_look fun e d4 => ?_
          split
          · trivial
          · exact henter _
  | solve dir name ws =>
    have hs : ∀ d, Keeps (name :: dir) (saveFile name dir ws .done) d := keeps_save (k := .done) (List.suffix_refl _) (fun _ => trivial) ws
    show Keeps (name :: dir) (solver dir name ws) d
    unfold solver
    refine keeps_look fun a d1 => ?_
    split
    · exact keeps_parents dir (List.suffix_cons _ _) false _ hs d1
    · exact hs d1

/-! ## Programs end -/

theorem Ends.mono {n m : ℕ} (h : n ≤ m) : ∀ {p : Prog}, Ends n p → Ends m p := by
  induction n generalizing m with
  | zero =>
    intro p hp
    cases p with
    | done => cases m <;> trivial
    | fail e => cases m <;> trivial
    | act eff next => exact absurd hp (by simp [Ends])
  | succ n ih =>
    intro p hp
    cases m with
    | zero => omega
    | succ m =>
      cases p with
      | done => trivial
      | fail e => trivial
      | act eff next => exact fun d => ih (by omega) (hp d)

/-- The program ends. -/
def Short (p : Prog) : Prop := ∃ n, Ends n p

theorem short_done : Short .done := ⟨0, trivial⟩
theorem short_fail (e : Err) : Short (.fail e) := ⟨0, trivial⟩

/-- A call after which there are two ways to go on. -/
theorem short_two {eff : Disk → Disk} {next : Disk → Prog} {a b : Prog} (ha : Short a) (hb : Short b) (h : ∀ d, next d = a ∨ next d = b) : Short (.act eff next) := by
  obtain ⟨n, hn⟩ := ha
  obtain ⟨m, hm⟩ := hb
  refine ⟨max n m + 1, fun d => ?_⟩
  rcases h d with h | h <;> rw [h]
  · exact hn.mono (le_max_left _ _)
  · exact hm.mono (le_max_right _ _)

theorem short_three {eff : Disk → Disk} {next : Disk → Prog} {a b c : Prog} (ha : Short a) (hb : Short b) (hc : Short c) (h : ∀ d, next d = a ∨ next d = b ∨ next d = c) :
    Short (.act eff next) := by
  obtain ⟨n, hn⟩ := ha
  obtain ⟨m, hm⟩ := hb
  obtain ⟨l, hl⟩ := hc
  refine ⟨max n (max m l) + 1, fun d => ?_⟩
  rcases h d with h | h | h <;> rw [h]
  · exact hn.mono (by omega)
  · exact hm.mono (by omega)
  · exact hl.mono (by omega)

theorem short_mkdir {n : String} {par : Place} {made missing other : Prog} (h1 : Short made) (h2 : Short missing) (h3 : Short other) :
    Short (mkdirOnce n par made missing other) :=
  short_three h1 h2 h3 fun d => by
    beta_reduce
    split_ifs <;> simp

theorem short_there (p : Place) (b : Bool) {k : Prog} (hk : Short k) : Short (whenThere p b k) := by
  unfold whenThere
  split
  · exact short_two hk (short_fail .os) fun d => ite_eq_or_eq _ _ _
  · exact short_fail _

theorem short_parents (p : Place) : ∀ (b : Bool) (k : Prog), Short k → Short (mkParents p b k) := by
  induction p with
  | nil => exact fun b k hk => short_there [] b hk
  | cons n par ih =>
    intro b k hk
    unfold mkParents
    exact short_mkdir hk (ih true _ (short_mkdir hk (short_fail _) (short_there _ b hk))) (short_there _ b hk)

theorem short_writes {p : Place} {k : Prog} (hk : Short k) (ws : List (ℕ × List Char)) : Short (writes p ws k) := by
  induction ws with
  | nil => exact hk
  | cons w ws ih => exact short_two ih ih fun d => Or.inl rfl

theorem short_save {n : String} {dir : Place} {k : Prog} (hk : Short k) (ws : List (ℕ × List Char)) : Short (saveFile n dir ws k) :=
  short_two (short_writes hk ws) (short_fail .os) fun d => ite_eq_or_eq _ _ _

theorem short_files {dir : Place} (files : List (String × List (ℕ × List Char))) : Short (saveFiles dir files) := by
  induction files with
  | nil => exact short_done
  | cons f fs ih => exact short_save ih f.2

theorem short_subs {dir : Place} {k : Prog} (hk : Short k) (ss : List String) : Short (makeSubs dir k ss) := by
  induction ss with
  | nil => exact hk
  | cons s ss ih => exact short_two (short_mkdir (n := s) (par := dir) ih (short_fail .os) (short_fail .os)) ih fun d => ite_eq_or_eq _ _ _

theorem job_short (j : Job) : Short j.prog := by
  cases j with
  | write o dir files =>
    have h1 : Short (saveFiles dir files) := short_files files
    have h2 := short_parents dir false _ h1
    show Short (writer o dir files)
    unfold writer checkPlace
    refine short_two (short_fail .write) (b := look dir fun _ => look dir fun c => if c.isNone then mkParents dir false (saveFiles dir files) else saveFiles dir files) ?_
      fun d => ite_eq_or_eq _ _ _
    refine short_two (a := look dir fun c => if c.isNone then mkParents dir false (saveFiles dir files) else saveFiles dir files) ?_ (short_fail .os) fun d => Or.inl rfl
    exact short_two h2 h1 fun d => ite_eq_or_eq _ _ _
  | create dir ws =>
    have h1 : Short (fillProject dir ws) := short_subs (short_save short_done ws) _
    have h2 := short_parents dir false _ h1
    have h3 : Short (enterProject dir ws) := by
      unfold enterProject
      refine short_two (a := look dir fun b => if b.isNone then .fail .os else look dir fun c => if c = some .dir then fillProject dir ws else .fail .notDir) ?_ h2
        fun d => ite_eq_or_eq _ _ _
      refine short_two (short_fail .os) (b := look dir fun c => if c = some .dir then fillProject dir ws else .fail .notDir) ?_ fun d => ite_eq_or_eq _ _ _
      exact short_two h1 (short_fail .notDir) fun d => ite_eq_or_eq _ _ _
    show Short (creator dir ws)
    unfold creator
    refine short_two h3 (b := look dir fun b => if b.isNone then enterProject dir ws else look dir fun c => if c ≠ some .dir then enterProject dir ws
      else look (projName :: dir) fun e => if e.isSome then .fail .projCreate else enterProject dir ws) ?_ fun d => ite_eq_or_eq _ _ _
    refine short_two h3 (b := look dir fun c => if c ≠ some .dir then enterProject dir ws
      else look (projName :: dir) fun e => if e.isSome then .fail .projCreate else enterProject dir ws) ?_ fun d => ite_eq_or_eq _ _ _
    refine short_two h3 (b := look (projName :: dir) fun e => if e.isSome then .fail .projCreate else enterProject dir ws) ?_ fun d => ite_eq_or_eq _ _ _
    exact short_two (short_fail .projCreate) h3 fun d => ite_eq_or_eq _ _ _
  | solve dir name ws =>
    have h1 : Short (saveFile name dir ws .done) := short_save short_done ws
    exact short_two (short_parents dir false _ h1) h1 fun d => ite_eq_or_eq _ _ _

section
variable {ι : Type} [DecidableEq ι]

theorem ends_run (s : Sys ι) (i : ι) (n : ℕ) (h : Ends n (s.procs i)) (sched : List ι) : Ends (n - sched.count i) ((s.run sched).procs i) := by
  induction sched using List.reverseRecOn with
  | nil => exact h
  | append_singleton sched j ih =>
    rw [run_snoc, List.count_append]
    generalize s.run sched = s' at ih
    unfold Sys.tick
    cases hp : s'.procs j with
    | done =>
      simp only
      by_cases hij : i = j
      · subst hij
        rw [hp]
        exact Ends.mono (Nat.zero_le _) (n := 0) trivial
      · rw [List.count_cons_of_ne (Ne.symm hij)]
        simpa using ih
    | fail e =>
      simp only
      by_cases hij : i = j
      · subst hij
        rw [hp]
        exact Ends.mono (Nat.zero_le _) (n := 0) trivial
      · rw [List.count_cons_of_ne (Ne.symm hij)]
        simpa using ih
    | act eff next =>
      simp only
      by_cases hij : i = j
      · subst hij
        rw [Function.update_self, List.count_singleton_self]
        rw [hp] at ih
        cases hm : n - sched.count i with
        | zero => rw [hm] at ih; exact absurd ih (by simp [Ends])
        | succ m =>
          rw [hm] at ih
          have : n - (sched.count i + 1) = m := by omega
          rw [this]
          exact ih _
      · rw [Function.update_of_ne hij, List.count_cons_of_ne (Ne.symm hij)]
        simpa using ih

end

/-! ## The theorems -/

section
variable {ι : Type} [DecidableEq ι]

/-- What all the jobs together may change in places that belong to none of them. -/
def Outside (jobs : ι → Job) (d d' : Disk) : Prop :=
  Grows d d' ∧ ∀ p, (∀ i, ¬ Below (jobs i).home p) → d' p = d p ∨ (d p = none ∧ d' p = some .dir ∧ ∃ i, p <:+ (jobs i).home)

omit [DecidableEq ι] in
theorem Outside.trans {jobs : ι → Job} {a b c : Disk} (h : Outside jobs a b) (h' : Outside jobs b c) : Outside jobs a c := by
  refine ⟨h.1.trans h'.1, fun p hp => ?_⟩
  rcases h.2 p hp with h1 | ⟨h1, h2, h3⟩
  · rcases h'.2 p hp with h4 | ⟨h4, h5, h6⟩
    · exact Or.inl (h4.trans h1)
    · exact Or.inr ⟨by rw [← h1]; exact h4, h5, h6⟩
  · exact Or.inr ⟨h1, (h'.1 p).1 h2, h3⟩

/-- **C82 (nothing is lost)**. Whatever processes write data, create projects and save solutions, in the same places or not, and whenever some of them are interrupted: no directory
or file ever vanishes, no directory becomes a file or the other way round, and outside the places of the jobs nothing changes but missing directories on the way to those places, which are made. -/
theorem C82_nothing_vanishes (d0 : Disk) (jobs : ι → Job) (sched : List ι) : Outside jobs d0 ((start d0 jobs).run sched).disk := by
  have key : Outside jobs d0 ((start d0 jobs).run sched).disk ∧ ∀ i, ∃ d, Keeps (jobs i).home (((start d0 jobs).run sched).procs i) d := by
    induction sched using List.reverseRecOn with
    | nil => exact ⟨⟨.refl _, fun _ _ => Or.inl rfl⟩, fun i => ⟨d0, job_keeps (jobs i) d0⟩⟩
    | append_singleton sched j ih =>
      rw [run_snoc]
      generalize (start d0 jobs).run sched = s' at ih
      unfold Sys.tick
      cases hp : s'.procs j with
      | done => exact ih
      | fail e => exact ih
      | act eff next =>
        obtain ⟨d, hd⟩ := ih.2 j
        rw [hp] at hd
        obtain ⟨g1, -, g3⟩ := hd s'.disk trivial
        refine ⟨ih.1.trans ⟨g1.1, fun p hp => ?_⟩, fun i => ?_⟩
        · rcases g1.2 p (hp j) with h | ⟨h1, h2, h3⟩
          · exact Or.inl h
          · exact Or.inr ⟨h1, h2, j, h3⟩
        · simp only
          by_cases hij : i = j
          · subst hij
            rw [Function.update_self]
            exact ⟨_, g3⟩
          · rw [Function.update_of_ne hij]
            exact ih.2 i
  exact key.1

/-- **C82 (every process ends)**. There is a number of turns, whatever the others do, after which a job has returned or raised. -/
theorem C82_ends (j : Job) : ∃ turns, ∀ (s : Sys ι) (i : ι) (sched : List ι), s.procs i = j.prog → turns ≤ sched.count i →
    (s.run sched).procs i = .done ∨ ∃ e, (s.run sched).procs i = .fail e := by
  obtain ⟨n, hn⟩ := job_short j
  refine ⟨n, fun s i sched hp hc => ?_⟩
  have := ends_run s i n (by rw [hp]; exact hn) sched
  rw [Nat.sub_eq_zero_of_le hc] at this
  cases hq : (s.run sched).procs i with
  | done => exact Or.inl rfl
  | fail e => exact Or.inr ⟨e, rfl⟩
  | act eff next => rw [hq] at this; exact absurd this (by simp [Ends])

/-- **C82 (separate places)**. Any number of processes write data, create projects and save solutions in separate places that are ready for them, and take turns in any order; some may be
interrupted.  None of them fails; one that had its turns has returned; what it leaves in its place is what it would leave alone, and at every moment what is there is
a stage on the way to that, as it is in a process alone.  They may make the same missing directories on the way. -/
theorem C82_separate (d0 : Disk) (jobs : ι → Job) (hsep : ∀ i j, i ≠ j → Separate (jobs i).home (jobs j).home) (hfine : ∀ i, (jobs i).Fine d0) (sched : List ι) (i : ι) :
    (∀ e, ((start d0 jobs).run sched).procs i ≠ .fail e) ∧
    (((start d0 jobs).run sched).procs i = .done → ∀ p, Below (jobs i).home p → ((start d0 jobs).run sched).disk p = (jobs i).result d0 p) ∧
    ∃ b, (jobs i).Stage d0 b ∧ ∀ p, Below (jobs i).home p → ((start d0 jobs).run sched).disk p = b p := by
  have := parallel (start d0 jobs) (R := fun i => Spares (jobs i).home) (G := fun i => Within (jobs i).home)
    (I := fun i d => ∃ b, (jobs i).Stage d0 b ∧ Same (jobs i).home b d) (Q := fun i => Same (jobs i).home ((jobs i).result d0)) (F := fun _ _ _ => False)
    (fun i d => Spares.refl _ d) (fun i a b c => Spares.trans) (fun i j d d' hij => within_spares (hsep i j hij))
    (fun i d d' ⟨b, hb, hs⟩ hsp => ⟨b, hb, hs.spares hsp⟩) (fun i => job_works (jobs i) d0 (hfine i))
    (fun i => ⟨d0, by
      show (jobs i).Stage d0 d0
      cases jobs i <;> exact Or.inl rfl, fun _ _ => rfl⟩) sched i
  obtain ⟨h1, d, h2, h3⟩ := this
  refine ⟨fun e he => ?_, fun hd => ?_, h1⟩
  · rw [he] at h3
    exact h3
  · rw [hd] at h3
    exact Same.spares h3 h2

end

end Par
end Resistics
