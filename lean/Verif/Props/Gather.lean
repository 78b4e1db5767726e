import Verif.Model.Gather
import Verif.Props.Spectra

/-!
# Properties C29 and C30: which windows a site has and which windows all sites share
-/

namespace Resistics

/-- Specification: the measurement with these metadata has the global window `g` at the level. -/
def SpecMeta.Holds (md : SpecMeta) (level : ℕ) (g : ℤ) : Prop :=
  level < md.nLevels ∧ ∃ lm, md.levels[level]? = some lm ∧ lm.indexOffset ≤ g ∧ g < lm.indexOffset + lm.nWins

/-- Specification: `name` is the first measurement of the list that has window `g` at the level. -/
def IsFirstHolder (mm : List (String × SpecMeta)) (level : ℕ) (g : ℤ) (name : String) : Prop :=
  ∃ pre md post, mm = pre ++ (name, md) :: post ∧ md.Holds level g ∧ ∀ m ∈ pre, ¬ m.2.Holds level g

/-! ## helper lemmas -/

theorem lookup_filter_ne {α β : Type} [DecidableEq α] (l : List (α × β)) (a k : α) (h : k ≠ a) :
    (l.filter fun b => b.1 ≠ a).lookup k = l.lookup k := by
  induction l with
  | nil => rfl
  | cons x l ih =>
    obtain ⟨x1, x2⟩ := x
    by_cases hx : x1 = a
    · subst hx
      have : (k == x1) = false := by simpa using h
      rw [List.filter_cons_of_neg (by simp), List.lookup_cons, this]
      exact ih
    · simp only [ne_eq, hx, not_false_eq_true, decide_true, List.filter_cons_of_pos, List.lookup_cons, ih]

theorem mem_dropDup {α β : Type} [DecidableEq α] (l : List (α × β)) (k : α) (v : β) :
    (k, v) ∈ dropDup l ↔ l.lookup k = some v := by
  induction l with
  | nil => simp [dropDup]
  | cons x l ih =>
    obtain ⟨x1, x2⟩ := x
    simp only [dropDup, List.mem_cons, List.mem_filter, ih, List.lookup_cons, Prod.mk.injEq]
    by_cases h : k = x1
    · subst h
      simp [eq_comm]
    · have : (k == x1) = false := by simpa using h
      simp [h, this]

theorem dropDup_nodup {α β : Type} [DecidableEq α] (l : List (α × β)) : ((dropDup l).map Prod.fst).Nodup := by
  induction l with
  | nil => simp [dropDup]
  | cons x l ih =>
    simp only [dropDup, List.map_cons, List.nodup_cons]
    constructor
    · simp
    · exact List.Nodup.sublist (List.Sublist.map _ List.filter_sublist) ih

theorem lookup_of_mem {α β : Type} [DecidableEq α] {l : List (α × β)} (hnd : (l.map Prod.fst).Nodup) {k : α} {v : β} :
    l.lookup k = some v ↔ (k, v) ∈ l := by
  induction l with
  | nil => simp
  | cons x l ih =>
    obtain ⟨x1, x2⟩ := x
    simp only [List.map_cons, List.nodup_cons] at hnd
    simp only [List.lookup_cons, List.mem_cons, Prod.mk.injEq]
    by_cases h : k = x1
    · subst h
      have hno : (k, v) ∉ l := fun hm => hnd.1 (List.mem_map.mpr ⟨_, hm, rfl⟩)
      simp [hno, eq_comm]
    · have : (k == x1) = false := by simpa using h
      simp [this, h, ih hnd.2]

theorem sortIndex_perm {β : Type} (l : List (ℤ × β)) : (sortIndex l).Perm l := List.perm_insertionSort _ _

theorem sortIndex_increasing {β : Type} (l : List (ℤ × β)) (hnd : (l.map Prod.fst).Nodup) :
    ((sortIndex l).map Prod.fst).Pairwise (· < ·) := by
  have : Std.Total (fun a b : ℤ × β => a.1 ≤ b.1) := ⟨fun a b => le_total _ _⟩
  have : IsTrans (ℤ × β) (fun a b => a.1 ≤ b.1) := ⟨fun a b c => le_trans⟩
  have hs : (sortIndex l).Pairwise (fun a b => a.1 ≤ b.1) := List.pairwise_insertionSort _ _
  have hn : ((sortIndex l).map Prod.fst).Nodup := (List.Perm.nodup_iff ((sortIndex_perm l).map _)).mpr hnd
  rw [List.pairwise_map]
  rw [List.nodup_iff_pairwise_ne, List.pairwise_map] at hn
  exact (hs.and hn).imp fun ⟨h1, h2⟩ => lt_of_le_of_ne h1 h2

/-- the windows of one measurement, looked up -/
theorem measLevelWins_spec (level : ℕ) (m : String × SpecMeta) (hwf : m.2.levels.length = m.2.nLevels) :
    ∃ l, measLevelWins level m = .ok l ∧ (∀ g, m.2.Holds level g → l.lookup g = some m.1) ∧
      (∀ g, ¬ m.2.Holds level g → l.lookup g = none) := by
  unfold measLevelWins
  by_cases h : m.2.nLevels ≤ level
  · rw [if_pos h]
    refine ⟨[], rfl, ?_, fun _ _ => rfl⟩
    intro g hg; exact absurd hg.1 (by omega)
  · rw [if_neg h]
    have hl : level < m.2.levels.length := by omega
    simp only [pyIndex_natCast _ _ hl, bind, Except.bind, pure, Except.pure]
    refine ⟨_, rfl, ?_, ?_⟩
    all_goals
      intro g
      generalize hlm : m.2.levels[level] = lm
      have hlm? : m.2.levels[level]? = some lm := by rw [List.getElem?_eq_getElem hl, hlm]
    · rintro ⟨-, lm', h1, h2, h3⟩
      rw [hlm?, Option.some.injEq] at h1
      subst h1
      rw [lookup_of_mem]
      · refine List.mem_map.mpr ⟨g, ?_, rfl⟩
        unfold npArange
        refine List.mem_map.mpr ⟨(g - lm.indexOffset).toNat, ?_, by omega⟩
        rw [List.mem_range]; omega
      · rw [List.map_map]
        have : (Prod.fst ∘ fun g : ℤ => (g, m.1)) = id := rfl
        rw [this, List.map_id]
        unfold npArange
        refine List.Nodup.map ?_ List.nodup_range
        intro a b hab
        simpa using hab
    · intro hno
      rw [List.lookup_eq_none_iff]
      intro p hp
      obtain ⟨g', hg', rfl⟩ := List.mem_map.mp hp
      unfold npArange at hg'
      obtain ⟨i, hi, rfl⟩ := List.mem_map.mp hg'
      rw [List.mem_range] at hi
      rw [bne_iff_ne]
      intro heq
      exact hno ⟨by omega, lm, hlm?, by omega, by omega⟩

theorem parts_lookup (level : ℕ) (mm : List (String × SpecMeta))
    (hwf : ∀ m ∈ mm, m.2.levels.length = m.2.nLevels) :
    ∃ parts, mm.mapM (measLevelWins level) = .ok parts ∧
      ∀ g name, parts.flatten.lookup g = some name ↔ IsFirstHolder mm level g name := by
  induction mm with
  | nil =>
    refine ⟨[], rfl, ?_⟩
    intro g name
    simp only [List.flatten_nil, List.lookup_nil, reduceCtorEq, false_iff]
    rintro ⟨pre, md, post, h, -⟩
    simp at h
  | cons m mm ih =>
    obtain ⟨parts, h1, h2⟩ := ih fun x hx => hwf x (by simp [hx])
    obtain ⟨l, h3, h4, h5⟩ := measLevelWins_spec level m (hwf m (by simp))
    refine ⟨l :: parts, ?_, ?_⟩
    · rw [List.mapM_cons, h3, h1]; rfl
    · intro g name
      rw [List.flatten_cons, List.lookup_append]
      by_cases hg : m.2.Holds level g
      · rw [h4 g hg, Option.some_or, Option.some.injEq]
        constructor
        · rintro rfl
          exact ⟨[], m.2, mm, rfl, hg, by simp⟩
        · rintro ⟨pre, md, post, e1, e2, e3⟩
          cases pre with
          | nil => simp only [List.nil_append, List.cons.injEq] at e1; rw [e1.1]
          | cons p pre =>
            simp only [List.cons_append, List.cons.injEq] at e1
            exact absurd hg (by rw [e1.1]; exact e3 p (by simp))
      · rw [h5 g hg, Option.none_or, h2 g name]
        constructor
        · rintro ⟨pre, md, post, e1, e2, e3⟩
          refine ⟨m :: pre, md, post, by rw [e1]; rfl, e2, ?_⟩
          intro x hx
          rcases List.mem_cons.mp hx with rfl | hx
          · exact hg
          · exact e3 x hx
        · rintro ⟨pre, md, post, e1, e2, e3⟩
          cases pre with
          | nil =>
            simp only [List.nil_append, List.cons.injEq] at e1
            exact absurd (by rw [e1.1]; exact e2) hg
          | cons p pre =>
            simp only [List.cons_append, List.cons.injEq] at e1
            exact ⟨pre, md, post, e1.2, e2, fun x hx => e3 x (by simp [hx])⟩

theorem exists_first_holder (mm : List (String × SpecMeta)) (level : ℕ) (g : ℤ) :
    (∃ name, IsFirstHolder mm level g name) ↔ ∃ m ∈ mm, m.2.Holds level g := by
  constructor
  · rintro ⟨name, pre, md, post, rfl, h, -⟩
    exact ⟨(name, md), by simp, h⟩
  · induction mm with
    | nil => simp
    | cons m mm ih =>
      rintro ⟨x, hx, hxg⟩
      by_cases hg : m.2.Holds level g
      · exact ⟨m.1, [], m.2, mm, rfl, hg, by simp⟩
      · rcases List.mem_cons.mp hx with rfl | hx
        · exact absurd hxg hg
        · obtain ⟨name, pre, md, post, e1, e2, e3⟩ := ih ⟨x, hx, hxg⟩
          refine ⟨name, m :: pre, md, post, by rw [e1]; rfl, e2, ?_⟩
          intro y hy
          rcases List.mem_cons.mp hy with rfl | hy
          · exact hg
          · exact e3 y hy

/-! ## C29 -/

/-- **C29**. The window table of a level lists the global windows in increasing order, once each; it holds exactly
the windows that some measurement has at the level, each with the first measurement that has it. -/
theorem C29_level_wins (mm : List (String × SpecMeta)) (level : ℕ)
    (hwf : ∀ m ∈ mm, m.2.levels.length = m.2.nLevels) :
    ∃ t, getSiteLevelWins mm level = .ok t ∧ (t.map Prod.fst).Pairwise (· < ·) ∧
      (∀ g, g ∈ t.map Prod.fst ↔ ∃ m ∈ mm, m.2.Holds level g) ∧
      (∀ g name, (g, name) ∈ t ↔ IsFirstHolder mm level g name) := by
  obtain ⟨parts, h1, h2⟩ := parts_lookup level mm hwf
  have hmem : ∀ g name, (g, name) ∈ sortIndex (dropDup parts.flatten) ↔ IsFirstHolder mm level g name := by
    intro g name
    rw [(sortIndex_perm _).mem_iff, mem_dropDup, h2]
  refine ⟨sortIndex (dropDup parts.flatten), ?_, sortIndex_increasing _ (dropDup_nodup _), ?_, hmem⟩
  · unfold getSiteLevelWins; rw [h1]; rfl
  · intro g
    rw [← exists_first_holder]
    constructor
    · intro h
      obtain ⟨⟨g', name⟩, h3, rfl⟩ := List.mem_map.mp h
      exact ⟨name, (hmem _ _).mp h3⟩
    · rintro ⟨name, h⟩
      exact List.mem_map.mpr ⟨(g, name), (hmem _ _).mpr h, rfl⟩

/-- Specification: `name` is a measurement of the site with sampling frequency `fs` whose evaluation frequency
metadata can be read as `md`. -/
def HasMeas {V : Type} (store : EvalStore V) (proj : GProject) (fs : ℚ) (site name : String) (md : SpecMeta) : Prop :=
  ∃ ms, proj.sites.lookup site = some ms ∧ (name, fs) ∈ ms ∧ store.readMeta site name = .ok md

/-- Specification: the metadata of every readable measurement describe all their levels. -/
def StoreWf {V : Type} (store : EvalStore V) : Prop :=
  ∀ site name md, store.readMeta site name = .ok md → md.levels.length = md.nLevels

theorem getSiteEvalsMetadata_spec {V : Type} (store : EvalStore V) (proj : GProject) (site : String) (fs : ℚ)
    (ms : List (String × ℚ)) (h : proj.sites.lookup site = some ms) :
    ∃ mm, getSiteEvalsMetadata store proj site fs = .ok mm ∧
      (∀ name md, (name, md) ∈ mm ↔ HasMeas store proj fs site name md) ∧
      (mm.map Prod.fst).Sublist (ms.map Prod.fst) := by
  refine ⟨_, by unfold getSiteEvalsMetadata GProject.getSite; rw [h]; rfl, ?_, ?_⟩
  · intro name md
    simp only [List.mem_filterMap, List.mem_filter, decide_eq_true_eq]
    constructor
    · rintro ⟨⟨n, f⟩, ⟨h1, h2⟩, h3⟩
      unfold evalsMetaOf at h3
      cases hr : store.readMeta site n with
      | error e => simp [hr] at h3
      | ok md' =>
        simp only [hr, Option.some.injEq, Prod.mk.injEq] at h3
        obtain ⟨rfl, rfl⟩ := h3
        simp only at h2
        subst h2
        exact ⟨ms, h, h1, hr⟩
    · rintro ⟨ms', h1, h2, h3⟩
      rw [h, Option.some.injEq] at h1
      subst h1
      refine ⟨(name, fs), ⟨h2, rfl⟩, ?_⟩
      simp [evalsMetaOf, h3]
  · clear h
    induction ms with
    | nil => simp
    | cons a l ih =>
      by_cases ha : a.2 = fs
      · rw [List.filter_cons_of_pos (by simpa using ha), List.filterMap_cons]
        unfold evalsMetaOf at ih ⊢
        cases hr : store.readMeta site a.1 with
        | error e => simp only; exact List.Sublist.cons _ ih
        | ok md => simp only [List.map_cons]; exact List.Sublist.cons_cons _ ih
      · rw [List.filter_cons_of_neg (by simpa using ha), List.map_cons]
        exact List.Sublist.cons _ ih

theorem foldl_max_spec (l : List ℕ) (a : ℕ) :
    (l.foldl max a = a ∨ l.foldl max a ∈ l) ∧ a ≤ l.foldl max a ∧ ∀ x ∈ l, x ≤ l.foldl max a := by
  induction l generalizing a with
  | nil => simp
  | cons b l ih =>
    obtain ⟨h1, h2, h3⟩ := ih (max a b)
    simp only [List.foldl_cons, List.mem_cons]
    refine ⟨?_, by omega, ?_⟩
    · rcases h1 with h1 | h1
      · rw [h1]
        rcases le_total a b with h | h
        · right; left; simp [h]
        · left; simp [h]
      · right; right; exact h1
    · rintro x (rfl | hx)
      · omega
      · exact h3 x hx

theorem foldl_min_spec (l : List ℕ) (a : ℕ) :
    (l.foldl min a = a ∨ l.foldl min a ∈ l) ∧ l.foldl min a ≤ a ∧ ∀ x ∈ l, l.foldl min a ≤ x := by
  induction l generalizing a with
  | nil => simp
  | cons b l ih =>
    obtain ⟨h1, h2, h3⟩ := ih (min a b)
    simp only [List.foldl_cons, List.mem_cons]
    refine ⟨?_, by omega, ?_⟩
    · rcases h1 with h1 | h1
      · rw [h1]
        rcases le_total a b with h | h
        · left; simp [h]
        · right; left; simp [h]
      · right; right; exact h1
    · rintro x (rfl | hx)
      · omega
      · exact h3 x hx

/-- Specification: `n` is the number of levels of the site: some measurement has that many and none has more. -/
def IsSiteLevels {V : Type} (store : EvalStore V) (proj : GProject) (fs : ℚ) (site : String) (n : ℕ) : Prop :=
  (∃ name md, HasMeas store proj fs site name md ∧ md.nLevels = n) ∧
  ∀ name md, HasMeas store proj fs site name md → md.nLevels ≤ n

/-- Specification: `t` is the window table of the site at a level: global windows in increasing order, exactly those
that some measurement has, each with a measurement that has it. -/
structure IsSiteTable {V : Type} (store : EvalStore V) (proj : GProject) (fs : ℚ) (site : String) (level : ℕ)
    (t : List (ℤ × String)) : Prop where
  increasing : (t.map Prod.fst).Pairwise (· < ·)
  complete : ∀ g name md, HasMeas store proj fs site name md → md.Holds level g → g ∈ t.map Prod.fst
  sound : ∀ g name, (g, name) ∈ t → ∃ md, HasMeas store proj fs site name md ∧ md.Holds level g

/-- **C29**. For a site of the project with at least one readable measurement, the result has one table for each of
the levels of the deepest measurement, and each is the window table of the level; a measurement that cannot be read
is left out.  An unknown site and a site without readable measurement are refused. -/
theorem C29_site_wins {V : Type} (store : EvalStore V) (hst : StoreWf store) (proj : GProject) (fs : ℚ) (site : String) :
    ((∃ name md, HasMeas store proj fs site name md) →
      ∃ tables, getSiteWins store proj fs site = .ok tables ∧ IsSiteLevels store proj fs site tables.length ∧
        ∀ (i : ℕ) (t : List (ℤ × String)), tables[i]? = some t → IsSiteTable store proj fs site i t) ∧
    (proj.sites.lookup site = none → getSiteWins store proj fs site = .error .siteNotFound) ∧
    (proj.sites.lookup site ≠ none → (¬ ∃ name md, HasMeas store proj fs site name md) →
      getSiteWins store proj fs site = .error .value) := by
  refine ⟨?_, ?_, ?_⟩
  · rintro ⟨name, md, hm⟩
    obtain ⟨ms, hms, -⟩ := id hm
    obtain ⟨mm, h1, h2, -⟩ := getSiteEvalsMetadata_spec store proj site fs ms hms
    have hmem := (h2 name md).mpr hm
    have hwf : ∀ m ∈ mm, m.2.levels.length = m.2.nLevels := by
      intro m hmm
      obtain ⟨-, -, -, h⟩ := (h2 m.1 m.2).mp hmm
      exact hst _ _ _ h
    cases mm with
    | nil => simp at hmem
    | cons m0 mm =>
      have hmax : pyMax ((m0 :: mm).map fun m => m.2.nLevels) =
          .ok ((mm.map fun m => m.2.nLevels).foldl max m0.2.nLevels) := rfl
      obtain ⟨k1, k2, k3⟩ := foldl_max_spec (mm.map fun m => m.2.nLevels) m0.2.nLevels
      generalize (mm.map fun m => m.2.nLevels).foldl max m0.2.nLevels = n at hmax k1 k2 k3
      obtain ⟨tables, ht⟩ := mapM_exists (f := getSiteLevelWins (m0 :: mm)) (l := List.range n) (by
        intro i _
        obtain ⟨t, h, -⟩ := C29_level_wins (m0 :: mm) i hwf
        exact ⟨t, h⟩)
      have hlen : tables.length = n := by simpa using mapM_ok_length ht
      refine ⟨tables, ?_, ?_, ?_⟩
      · unfold getSiteWins
        rw [h1]
        simp only [bind, Except.bind]
        rw [if_neg (by simp)]
        simp only [hmax]
        exact ht
      · rw [hlen]
        constructor
        · rcases k1 with k1 | k1
          · exact ⟨m0.1, m0.2, (h2 _ _).mp (by simp), k1.symm⟩
          · obtain ⟨m, hm1, hm2⟩ := List.mem_map.mp k1
            exact ⟨m.1, m.2, (h2 _ _).mp (by simp [hm1]), hm2⟩
        · intro name' md' hm'
          rcases List.mem_cons.mp ((h2 _ _).mpr hm') with heq | hin
          · rw [← heq] at k2; exact k2
          · exact k3 _ (List.mem_map.mpr ⟨_, hin, rfl⟩)
      · intro i t hit
        obtain ⟨hi, rfl⟩ := List.getElem?_eq_some_iff.mp hit
        have := mapM_ok_getElem ht i (by simpa [hlen] using hi) hi
        rw [List.getElem_range] at this
        obtain ⟨t', e1, e2, e3, e4⟩ := C29_level_wins (m0 :: mm) i hwf
        rw [e1, Except.ok.injEq] at this
        rw [← this]
        refine ⟨e2, ?_, ?_⟩
        · intro g name' md' hm' hg
          exact (e3 g).mpr ⟨(name', md'), (h2 _ _).mpr hm', hg⟩
        · intro g name' hg
          obtain ⟨pre, md', post, f1, f2, -⟩ := (e4 g name').mp hg
          exact ⟨md', (h2 _ _).mp (by rw [f1]; simp), f2⟩
  · intro h
    unfold getSiteWins getSiteEvalsMetadata GProject.getSite
    rw [h]; rfl
  · intro h hno
    obtain ⟨ms, hms⟩ := Option.ne_none_iff_exists'.mp h
    obtain ⟨mm, h1, h2, -⟩ := getSiteEvalsMetadata_spec store proj site fs ms hms
    have : mm = [] := by
      rw [List.eq_nil_iff_forall_not_mem]
      intro m hm
      exact hno ⟨m.1, m.2, (h2 _ _).mp hm⟩
    subst this
    unfold getSiteWins
    rw [h1]; rfl

/-! ## C30 -/

theorem mem_sortedSet (names : List String) (x : String) : x ∈ sortedSet names ↔ x ∈ names := by
  unfold sortedSet
  rw [(List.perm_insertionSort _ _).mem_iff, List.mem_dedup]

theorem sortedSet_increasing (names : List String) : (sortedSet names).Pairwise (· < ·) := by
  unfold sortedSet
  have hs : (names.dedup.insertionSort (· ≤ ·)).Pairwise (· ≤ ·) := List.pairwise_insertionSort _ _
  have hn : (names.dedup.insertionSort (· ≤ ·)).Nodup :=
    (List.Perm.nodup_iff (List.perm_insertionSort _ _)).mpr (List.nodup_dedup _)
  exact (hs.and hn).imp fun ⟨h1, h2⟩ => lt_of_le_of_ne h1 h2

theorem sortedSet_congr {a b : List String} (h : ∀ x, x ∈ a ↔ x ∈ b) : sortedSet a = sortedSet b := by
  refine List.Perm.eq_of_pairwise (le := fun x y => x ≤ y) ?_ ?_ ?_ ?_
  · intro x y _ _ h1 h2; exact le_antisymm h1 h2
  · exact (sortedSet_increasing a).imp le_of_lt
  · exact (sortedSet_increasing b).imp le_of_lt
  · rw [List.perm_ext_iff_of_nodup]
    · intro x; rw [mem_sortedSet, mem_sortedSet, h]
    · exact (sortedSet_increasing a).imp ne_of_lt
    · exact (sortedSet_increasing b).imp ne_of_lt

theorem mapM_option_some {α β : Type} {f : α → Option β} {l : List α} {out : List β} :
    l.mapM f = some out ↔ out.length = l.length ∧ ∀ (i : ℕ) (a : α), l[i]? = some a → ∃ b, f a = some b ∧ out[i]? = some b := by
  induction l generalizing out with
  | nil =>
    simp only [List.mapM_nil, List.length_nil]
    constructor
    · intro h
      have : out = [] := by simpa [pure] using h.symm
      subst this; simp
    · rintro ⟨h, -⟩
      rw [List.length_eq_zero_iff] at h
      subst h; rfl
  | cons a l ih =>
    rw [List.mapM_cons]
    constructor
    · intro h
      simp only [Option.bind_eq_bind, Option.bind_eq_some_iff, pure, Option.some.injEq] at h
      obtain ⟨b, hb, bs, hbs, rfl⟩ := h
      obtain ⟨h1, h2⟩ := ih.mp hbs
      refine ⟨by simp [h1], ?_⟩
      intro i x hx
      cases i with
      | zero => simp only [List.getElem?_cons_zero, Option.some.injEq] at hx; subst hx; exact ⟨b, hb, rfl⟩
      | succ i => simpa using h2 i x (by simpa using hx)
    · rintro ⟨h1, h2⟩
      obtain ⟨b, hb, hout⟩ := h2 0 a rfl
      cases out with
      | nil => simp at h1
      | cons b' bs =>
        simp only [List.getElem?_cons_zero, Option.some.injEq] at hout
        subst hout
        have : l.mapM f = some bs := by
          refine ih.mpr ⟨by simpa using h1, ?_⟩
          intro i x hx
          have := h2 (i + 1) x (by simpa using hx)
          simpa using this
        rw [hb, this]; rfl

theorem joinTables_increasing (cols : List (List (ℤ × String))) :
    ((joinTables cols).map Prod.fst).Pairwise (· < ·) := by
  unfold joinTables
  have hs : (((cols.flatten.map Prod.fst).dedup).insertionSort (· ≤ ·)).Pairwise (· ≤ ·) := List.pairwise_insertionSort _ _
  have hn : (((cols.flatten.map Prod.fst).dedup).insertionSort (· ≤ ·)).Nodup :=
    (List.Perm.nodup_iff (List.perm_insertionSort _ _)).mpr (List.nodup_dedup _)
  have hlt : (((cols.flatten.map Prod.fst).dedup).insertionSort (· ≤ ·)).Pairwise (· < ·) :=
    (hs.and hn).imp fun ⟨h1, h2⟩ => lt_of_le_of_ne h1 h2
  rw [List.pairwise_map, List.pairwise_filterMap]
  refine hlt.imp ?_
  intro a b hab x hx y hy
  obtain ⟨ms, -, rfl⟩ := Option.map_eq_some_iff.mp hx
  obtain ⟨ms', -, rfl⟩ := Option.map_eq_some_iff.mp hy
  exact hab

theorem mem_joinTables (cols : List (List (ℤ × String))) (hne : cols ≠ []) (g : ℤ) (ms : List String) :
    (g, ms) ∈ joinTables cols ↔ ms.length = cols.length ∧
      ∀ (i : ℕ) (c : List (ℤ × String)), cols[i]? = some c → ∃ m, c.lookup g = some m ∧ ms[i]? = some m := by
  unfold joinTables
  rw [List.mem_filterMap]
  constructor
  · rintro ⟨a, -, h⟩
    obtain ⟨ms', h1, h2⟩ := Option.map_eq_some_iff.mp h
    simp only [Prod.mk.injEq] at h2
    obtain ⟨rfl, rfl⟩ := h2
    exact mapM_option_some.mp h1
  · intro h
    refine ⟨g, ?_, by rw [mapM_option_some.mpr h]; rfl⟩
    rw [(List.perm_insertionSort _ _).mem_iff, List.mem_dedup]
    obtain ⟨c, cs, rfl⟩ := List.exists_cons_of_ne_nil hne
    obtain ⟨m, hm, -⟩ := h.2 0 c rfl
    refine List.mem_map.mpr ⟨(g, m), ?_, rfl⟩
    rw [List.mem_flatten]
    refine ⟨c, by simp, ?_⟩
    have : ∀ l : List (ℤ × String), l.lookup g = some m → (g, m) ∈ l := by
      intro l
      induction l with
      | nil => simp
      | cons x l ih =>
        obtain ⟨x1, x2⟩ := x
        rw [List.lookup_cons]
        by_cases hx : g = x1
        · subst hx; simp only [beq_self_eq_true, Option.some.injEq]; rintro rfl; simp
        · have : (g == x1) = false := by simpa using hx
          simp only [this]
          intro h; exact List.mem_cons_of_mem _ (ih h)
    exact this c hm

/-- Specification: `n` levels are shared by all the sites: `n` is the smallest number of levels of a site. -/
def IsSharedLevels {V : Type} (store : EvalStore V) (proj : GProject) (fs : ℚ) (sites : List String) (n : ℕ) : Prop :=
  (∃ s ∈ sites, IsSiteLevels store proj fs s n) ∧
  ∀ s ∈ sites, ∀ k, IsSiteLevels store proj fs s k → n ≤ k

/-- Specification: some measurement of the site has window `g` at the level. -/
def SiteHas {V : Type} (store : EvalStore V) (proj : GProject) (fs : ℚ) (site : String) (level : ℕ) (g : ℤ) : Prop :=
  ∃ name md, HasMeas store proj fs site name md ∧ md.Holds level g

theorem isSiteLevels_unique {V : Type} {store : EvalStore V} {proj : GProject} {fs : ℚ} {site : String} {n k : ℕ}
    (h1 : IsSiteLevels store proj fs site n) (h2 : IsSiteLevels store proj fs site k) : n = k := by
  obtain ⟨⟨_, md, a, rfl⟩, b⟩ := h1
  obtain ⟨⟨_, md', a', rfl⟩, b'⟩ := h2
  have := b _ _ a'
  have := b' _ _ a
  omega

/-- **C30**. For a non-empty list of sites that all have a readable measurement, the selection lists each site once;
its levels are those every site has; at each level the selected windows are, in increasing order, exactly those
that every site has, each row names for every site a measurement that has the window, and every evaluation
frequency of the level is selected. -/
theorem C30_selection {V : Type} (store : EvalStore V) (hst : StoreWf store) (proj : GProject) (names : List String)
    (p : DecParams ℚ) (hne : names ≠ [])
    (hall : ∀ s ∈ names, ∃ name md, HasMeas store proj p.fs s name md) :
    ∃ sel, selectorRun store proj names p = .ok sel ∧ sel.decParams = p ∧
      sel.sites.Nodup ∧ (∀ s, s ∈ sel.sites ↔ s ∈ names) ∧
      IsSharedLevels store proj p.fs names sel.nLevels ∧
      ∀ (i : ℕ) (t : List SelRow), sel.tables[i]? = some t →
        (t.map SelRow.win).Pairwise (· < ·) ∧
        (∀ g, g ∈ t.map SelRow.win ↔ ∀ s ∈ names, SiteHas store proj p.fs s i g) ∧
        (∀ row ∈ t, row.evals = List.replicate p.perLevel true ∧ row.meas.length = sel.sites.length ∧
          ∀ (k : ℕ) (s : String), sel.sites[k]? = some s → ∃ md,
            HasMeas store proj p.fs s (row.measOf k) md ∧ md.Holds i row.win) := by
  obtain ⟨sw, hsw⟩ := mapM_exists (f := getSiteWins store proj p.fs) (l := sortedSet names) (by
    intro s hs
    obtain ⟨t, h, -⟩ := (C29_site_wins store hst proj p.fs s).1 (hall s ((mem_sortedSet _ _).mp hs))
    exact ⟨t, h⟩)
  have hswl : sw.length = (sortedSet names).length := mapM_ok_length hsw
  -- what each entry is
  have hsite : ∀ (k : ℕ) (s : String), (sortedSet names)[k]? = some s → ∃ tables, sw[k]? = some tables ∧
      IsSiteLevels store proj p.fs s tables.length ∧
        ∀ (i : ℕ) (t : List (ℤ × String)), tables[i]? = some t → IsSiteTable store proj p.fs s i t := by
    intro k s hk
    obtain ⟨hk1, rfl⟩ := List.getElem?_eq_some_iff.mp hk
    have e := mapM_ok_getElem hsw k hk1 (by omega)
    obtain ⟨t, h1, h2, h3⟩ := (C29_site_wins store hst proj p.fs (sortedSet names)[k]).1
      (hall _ ((mem_sortedSet _ _).mp (List.getElem_mem hk1)))
    rw [h1, Except.ok.injEq] at e
    exact ⟨t, by rw [List.getElem?_eq_getElem (by omega), e], h2, h3⟩
  have hnn : sortedSet names ≠ [] := by
    obtain ⟨a, l, rfl⟩ := List.exists_cons_of_ne_nil hne
    intro h
    have := (mem_sortedSet (a :: l) a).mpr (by simp)
    rw [h] at this; simp at this
  have hswn : sw ≠ [] := by
    intro h; rw [h] at hswl
    exact hnn (List.length_eq_zero_iff.mp hswl.symm)
  obtain ⟨n, hmin, hmin1, hmin2⟩ : ∃ n, pyMin (sw.map List.length) = .ok n ∧ (∃ w ∈ sw, w.length = n) ∧
      ∀ w ∈ sw, n ≤ w.length := by
    obtain ⟨w0, ws, rfl⟩ := List.exists_cons_of_ne_nil hswn
    obtain ⟨k1, k2, k3⟩ := foldl_min_spec (ws.map List.length) w0.length
    refine ⟨_, rfl, ?_, ?_⟩
    · rcases k1 with k1 | k1
      · exact ⟨w0, by simp, k1.symm⟩
      · obtain ⟨w, h1, h2⟩ := List.mem_map.mp k1
        exact ⟨w, by simp [h1], h2⟩
    · intro w hw
      rcases List.mem_cons.mp hw with rfl | hw
      · exact k2
      · exact k3 _ (List.mem_map.mpr ⟨w, hw, rfl⟩)
  -- the columns of a level
  have hcols : ∀ i, i < n → ∃ cols, (sw.mapM fun (w : List (List (ℤ × String))) => pyIndex w (i : ℤ)) = .ok cols ∧
      cols.length = sw.length ∧ ∀ (k : ℕ) (c : List (ℤ × String)), cols[k]? = some c →
        ∃ s, (sortedSet names)[k]? = some s ∧ IsSiteTable store proj p.fs s i c := by
    intro i hi
    obtain ⟨cols, hc⟩ := mapM_exists (f := fun (w : List (List (ℤ × String))) => pyIndex w (i : ℤ)) (l := sw) (by
      intro w hw
      exact ⟨_, pyIndex_natCast w i (by have := hmin2 w hw; omega)⟩)
    have hcl := mapM_ok_length hc
    refine ⟨cols, hc, hcl, ?_⟩
    intro k c hk
    obtain ⟨hk1, rfl⟩ := List.getElem?_eq_some_iff.mp hk
    have hk2 : k < sw.length := by omega
    have e := mapM_ok_getElem hc k hk2 hk1
    have hk3 : i < sw[k].length := by have := hmin2 _ (List.getElem_mem hk2); omega
    rw [pyIndex_natCast _ _ hk3, Except.ok.injEq] at e
    refine ⟨(sortedSet names)[k]'(by omega), List.getElem?_eq_getElem _, ?_⟩
    obtain ⟨tables, h1, -, h3⟩ := hsite k _ (List.getElem?_eq_getElem (by omega))
    rw [List.getElem?_eq_getElem hk2, Option.some.injEq] at h1
    refine h3 i _ ?_
    rw [← h1, List.getElem?_eq_getElem hk3, e]
  obtain ⟨tables, htab⟩ := mapM_exists (f := selectLevel p sw) (l := List.range n) (by
    intro i hi
    obtain ⟨cols, h, -⟩ := hcols i (List.mem_range.mp hi)
    exact ⟨_, by unfold selectLevel; rw [h]; rfl⟩)
  have htl : tables.length = n := by simpa using mapM_ok_length htab
  refine ⟨⟨sortedSet names, p, tables⟩, ?_, rfl, ?_, mem_sortedSet names, ?_, ?_⟩
  · unfold selectorRun
    simp only [hsw, hmin, htab, bind, Except.bind, pure, Except.pure]
  · exact (sortedSet_increasing names).imp ne_of_lt
  · show IsSharedLevels store proj p.fs names tables.length
    rw [htl]
    constructor
    · obtain ⟨w, hw, rfl⟩ := hmin1
      obtain ⟨k, hk, rfl⟩ := List.mem_iff_getElem.mp hw
      refine ⟨(sortedSet names)[k]'(by omega), (mem_sortedSet _ _).mp (List.getElem_mem _), ?_⟩
      obtain ⟨t, h1, h2, -⟩ := hsite k _ (List.getElem?_eq_getElem (by omega))
      rw [List.getElem?_eq_getElem hk, Option.some.injEq] at h1
      rw [h1]; exact h2
    · intro s hs k hk
      obtain ⟨j, hj, rfl⟩ := List.mem_iff_getElem.mp ((mem_sortedSet _ _).mpr hs)
      obtain ⟨t, h1, h2, -⟩ := hsite j _ (List.getElem?_eq_getElem hj)
      rw [isSiteLevels_unique hk h2]
      exact hmin2 _ (List.mem_of_getElem? h1)
  · intro i t hit
    obtain ⟨hi, rfl⟩ := List.getElem?_eq_some_iff.mp hit
    have hin : i < n := by rw [← htl]; exact hi
    obtain ⟨cols, h1, h2, h3⟩ := hcols i hin
    have e := mapM_ok_getElem htab i (by simpa using hin) hi
    rw [List.getElem_range] at e
    have hsel : selectLevel p sw i = .ok (getEvals p (joinTables cols)) := by unfold selectLevel; rw [h1]; rfl
    rw [hsel, Except.ok.injEq] at e
    have hcn : cols ≠ [] := by
      intro h; rw [h] at h2
      exact hswn (List.length_eq_zero_iff.mp h2.symm)
    have hwin : tables[i].map SelRow.win = (joinTables cols).map Prod.fst := by
      rw [← e, getEvals, List.map_map]; rfl
    refine ⟨by rw [hwin]; exact joinTables_increasing _, ?_, ?_⟩
    · intro g
      rw [hwin]
      constructor
      · intro hg s hs
        obtain ⟨⟨g', ms⟩, hm, rfl⟩ := List.mem_map.mp hg
        obtain ⟨j, hj, rfl⟩ := List.mem_iff_getElem.mp ((mem_sortedSet _ _).mpr hs)
        obtain ⟨e1, e2⟩ := (mem_joinTables cols hcn _ _).mp hm
        have hjc : j < cols.length := by omega
        obtain ⟨m, f1, -⟩ := e2 j _ (List.getElem?_eq_getElem hjc)
        obtain ⟨s, f2, f3⟩ := h3 j _ (List.getElem?_eq_getElem hjc)
        rw [List.getElem?_eq_getElem hj, Option.some.injEq] at f2
        subst f2
        have hnd := f3.increasing.imp ne_of_lt
        obtain ⟨md, a, b⟩ := f3.sound _ _ ((lookup_of_mem hnd).mp f1)
        exact ⟨m, md, a, b⟩
      · intro hg
        -- the list of names found
        have hex : ∀ c ∈ cols, ∃ m, c.lookup g = some m := by
          intro c hc
          obtain ⟨k, hk, rfl⟩ := List.mem_iff_getElem.mp hc
          obtain ⟨s, f2, f3⟩ := h3 k _ (List.getElem?_eq_getElem hk)
          obtain ⟨name, md, a, b⟩ := hg s ((mem_sortedSet _ _).mp (List.mem_of_getElem? f2))
          obtain ⟨⟨g', m⟩, a1, rfl⟩ := List.mem_map.mp (f3.complete g name md a b)
          exact ⟨m, (lookup_of_mem (f3.increasing.imp ne_of_lt)).mpr a1⟩
        refine List.mem_map.mpr ⟨(g, cols.map fun c => (c.lookup g).getD ""), ?_, rfl⟩
        rw [mem_joinTables cols hcn]
        refine ⟨by simp, ?_⟩
        intro k c hk
        obtain ⟨m, hm⟩ := hex c (List.mem_of_getElem? hk)
        refine ⟨m, hm, ?_⟩
        rw [List.getElem?_map, hk]
        simp [hm]
    · intro row hrow
      rw [← e, getEvals] at hrow
      obtain ⟨⟨g, ms⟩, hm, rfl⟩ := List.mem_map.mp hrow
      obtain ⟨e1, e2⟩ := (mem_joinTables cols hcn _ _).mp hm
      refine ⟨rfl, by simp only; omega, ?_⟩
      intro k s hk
      simp only at hk
      obtain ⟨hk1, rfl⟩ := List.getElem?_eq_some_iff.mp hk
      have hkc : k < cols.length := by omega
      obtain ⟨m, f1, f4⟩ := e2 k _ (List.getElem?_eq_getElem hkc)
      obtain ⟨s, f2, f3⟩ := h3 k _ (List.getElem?_eq_getElem hkc)
      rw [hk, Option.some.injEq] at f2
      subst f2
      simp only [SelRow.measOf, f4, Option.getD_some]
      exact f3.sound _ _ ((lookup_of_mem (f3.increasing.imp ne_of_lt)).mp f1)

/-- **C30**. The selection depends only on the set of site names, not on their order or repetition. -/
theorem C30_order_irrelevant {V : Type} (store : EvalStore V) (proj : GProject) (p : DecParams ℚ)
    (names names' : List String) (h : ∀ s, s ∈ names ↔ s ∈ names') :
    selectorRun store proj names p = selectorRun store proj names' p := by
  unfold selectorRun
  rw [sortedSet_congr h]

/-- **C30**. Without sites there is no selection, and one site without readable data refuses the whole selection. -/
theorem C30_refused {V : Type} (store : EvalStore V) (hst : StoreWf store) (proj : GProject) (p : DecParams ℚ) :
    selectorRun store proj [] p = .error .value ∧
    ∀ names, (∃ s ∈ names, ¬ ∃ name md, HasMeas store proj p.fs s name md) →
      selectorRun store proj names p = .error .value ∨ selectorRun store proj names p = .error .siteNotFound := by
  refine ⟨rfl, ?_⟩
  rintro names ⟨s, hs, hno⟩
  cases hsw : (sortedSet names).mapM (getSiteWins store proj p.fs) with
  | ok sw =>
    exfalso
    obtain ⟨j, hj, heq⟩ := List.mem_iff_getElem.mp ((mem_sortedSet _ _).mpr hs)
    have := mapM_ok_getElem hsw j hj (by rw [mapM_ok_length hsw]; exact hj)
    rw [heq] at this
    obtain ⟨-, h2, h3⟩ := C29_site_wins store hst proj p.fs s
    cases hl : proj.sites.lookup s with
    | none => rw [h2 hl] at this; simp at this
    | some ms => rw [h3 (by simp [hl]) hno] at this; simp at this
  | error e =>
    have : selectorRun store proj names p = .error e := by unfold selectorRun; simp only [hsw, bind, Except.bind]
    rw [this]
    obtain ⟨a, -, ha⟩ := mapM_error hsw
    obtain ⟨h1, h2, h3⟩ := C29_site_wins store hst proj p.fs a
    by_cases hex : ∃ name md, HasMeas store proj p.fs a name md
    · obtain ⟨t, ht, -⟩ := h1 hex
      rw [ht] at ha; simp at ha
    · cases hl : proj.sites.lookup a with
      | none => rw [h2 hl] at ha; right; rw [Except.error.inj ha]
      | some ms => rw [h3 (by simp [hl]) hex] at ha; left; rw [Except.error.inj ha]

/-- **C30**. The number of windows and the windows of a level and evaluation frequency are those of its table; other
levels are refused. -/
theorem C30_counts {V : Type} (store : EvalStore V) (hst : StoreWf store) (proj : GProject) (names : List String)
    (p : DecParams ℚ) (hne : names ≠ [])
    (hall : ∀ s ∈ names, ∃ name md, HasMeas store proj p.fs s name md) :
    ∃ sel, selectorRun store proj names p = .ok sel ∧
      (∀ (i j : ℕ) (t : List SelRow), sel.tables[i]? = some t → j < p.perLevel →
        sel.getNWins i j = .ok t.length ∧ sel.getEvalWins i j = .ok t) ∧
      (∀ (i : ℕ) (j : ℤ), sel.nLevels ≤ i → sel.getNWins i j = .error .value) ∧
      sel.getNEvals = sel.nLevels * p.perLevel := by
  obtain ⟨sel, h1, h2, h3, h4, h5, h6⟩ := C30_selection store hst proj names p hne hall
  refine ⟨sel, h1, ?_, ?_, by unfold Selection.getNEvals; rw [h2]⟩
  · intro i j t hit hj
    obtain ⟨hi, -⟩ := List.getElem?_eq_some_iff.mp hit
    obtain ⟨-, -, h7⟩ := h6 i t hit
    have htab : sel.table (i : ℤ) = .ok t := by
      unfold Selection.table
      rw [if_neg (by omega)]
      simp [hit]
    have hfl : flaggedRows t (j : ℤ) = .ok t := by
      unfold flaggedRows
      rw [mapM_ok_map (g := fun _ => true)]
      · simp only [bind, Except.bind, pure, Except.pure, Except.ok.injEq]
        clear htab h7 hit
        induction t with
        | nil => rfl
        | cons a l ih => simpa using ih
      · intro row hr
        unfold evalFlag
        rw [if_neg (by omega), (h7 row hr).1]
        simp [hj]
    constructor
    · unfold Selection.getNWins
      rw [if_neg (by unfold Selection.nLevels; omega), htab]
      simp only [bind, Except.bind, hfl]; rfl
    · unfold Selection.getEvalWins
      rw [htab]; exact hfl
  · intro i j hi
    unfold Selection.getNWins
    rw [if_pos (by omega)]; rfl

/-- **C30 (what is not there)**: the windows of a level below zero or at or above the number of levels are a `KeyError`, and so is the
number of windows of a level below zero; a level with windows has none for an evaluation index outside the evaluation frequencies per
level, also a `KeyError`; the measurements of a site that was not selected are a `KeyError`. -/
theorem C30_not_there {V : Type} (store : EvalStore V) (hst : StoreWf store) (proj : GProject) (names : List String)
    (p : DecParams ℚ) (hne : names ≠ [])
    (hall : ∀ s ∈ names, ∃ name md, HasMeas store proj p.fs s name md) :
    ∃ sel, selectorRun store proj names p = .ok sel ∧
      (∀ (i j : ℤ), i < 0 ∨ (sel.nLevels : ℤ) ≤ i → sel.getEvalWins i j = .error .key) ∧
      (∀ (i j : ℤ), i < 0 → sel.getNWins i j = .error .key) ∧
      (∀ (i : ℕ) (j : ℤ) (t : List SelRow), sel.tables[i]? = some t → t ≠ [] → j < 0 ∨ (p.perLevel : ℤ) ≤ j →
        sel.getNWins i j = .error .key ∧ sel.getEvalWins i j = .error .key) ∧
      ∀ site, site ∉ names → sel.getMeasurements site = .error .key := by
  obtain ⟨sel, h1, h2, h3, h4, h5, h6⟩ := C30_selection store hst proj names p hne hall
  have hneg : ∀ i : ℤ, i < 0 → sel.table i = .error .key := fun i hi => by unfold Selection.table; rw [if_pos hi]
  refine ⟨sel, h1, ?_, ?_, ?_, ?_⟩
  · intro i j hi
    unfold Selection.getEvalWins
    have : sel.table i = .error .key := by
      rcases hi with hi | hi
      · exact hneg i hi
      · unfold Selection.table
        rw [if_neg (by omega)]
        have : sel.tables[i.toNat]? = none := by
          rw [List.getElem?_eq_none_iff]; unfold Selection.nLevels at hi; omega
        rw [this]
    rw [this]; rfl
  · intro i j hi
    unfold Selection.getNWins
    rw [if_neg (by omega), hneg i hi]; rfl
  · intro i j t hit ht hj
    obtain ⟨hi, -⟩ := List.getElem?_eq_some_iff.mp hit
    obtain ⟨-, -, h7⟩ := h6 i t hit
    have htab : sel.table (i : ℤ) = .ok t := by
      unfold Selection.table
      rw [if_neg (by omega)]
      simp [hit]
    have hfl : flaggedRows t j = .error .key := by
      obtain ⟨row, l, rfl⟩ := List.exists_cons_of_ne_nil ht
      have hrow : evalFlag row j = .error .key := by
        unfold evalFlag
        rcases hj with hj | hj
        · rw [if_pos hj]
        · rw [if_neg (by omega), (h7 row (by simp)).1]
          have : (List.replicate p.perLevel true)[j.toNat]? = none := by
            rw [List.getElem?_eq_none_iff, List.length_replicate]; omega
          rw [this]
      unfold flaggedRows
      rw [List.mapM_cons, hrow]; rfl
    constructor
    · unfold Selection.getNWins
      rw [if_neg (by unfold Selection.nLevels; omega), htab]
      simp only [bind, Except.bind, hfl]
    · unfold Selection.getEvalWins
      rw [htab]; exact hfl
  · intro site hs
    have hcol : sel.siteCol site = .error .key := by
      unfold Selection.siteCol
      have : sel.sites.findIdx? (· == site) = none := by
        rw [List.findIdx?_eq_none_iff]
        intro x hx
        rw [beq_eq_false_iff_ne]
        rintro rfl
        exact hs ((h4 _).1 hx)
      rw [this]
    unfold Selection.getMeasurements
    rw [hcol]; rfl

end Resistics
