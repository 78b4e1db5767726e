import Mathlib.Order.Bounds.Basic
import Verif.Model.Project
import Verif.Props.FilesCrash

/-!
# Projects: concurrent sites (C43), creation and loading (C44), queries (C54)
-/

namespace Resistics

variable {W : Type}

/-! ## Specification -/

/-- Specification: a project as the loader builds it: sites have different names, are filed under their name, and do not
end before they begin. -/
structure Project.WellFormed (p : Project W) : Prop where
  keys : (p.sites.map Prod.fst).Nodup
  name : ∀ q ∈ p.sites, q.2.name = q.1
  times : ∀ q ∈ p.sites, q.2.beginTime ≤ q.2.endTime

/-- Specification: two sites recorded at a common time. -/
def Site.Overlaps (a b : Site W) : Prop :=
  ∃ t, (a.beginTime ≤ t ∧ t ≤ a.endTime) ∧ (b.beginTime ≤ t ∧ t ≤ b.endTime)

theorem overlaps_iff {a b : Site W} (ha : a.beginTime ≤ a.endTime) (hb : b.beginTime ≤ b.endTime) :
    a.Overlaps b ↔ b.beginTime ≤ a.endTime ∧ a.beginTime ≤ b.endTime := by
  constructor
  · rintro ⟨t, ⟨h1, h2⟩, h3, h4⟩
    exact ⟨h3.trans h2, h1.trans h4⟩
  · rintro ⟨h1, h2⟩
    exact ⟨max a.beginTime b.beginTime, ⟨le_max_left _ _, max_le ha h1⟩, le_max_right _ _, max_le h2 hb⟩

theorem lookup_some_mem {α β : Type} [DecidableEq α] {l : List (α × β)} {k : α} {v : β} (h : l.lookup k = some v) :
    (k, v) ∈ l := by
  induction l with
  | nil => cases h
  | cons x l ih =>
    rw [List.lookup_cons] at h
    by_cases hx : k = x.1
    · have hb : (k == x.1) = true := by simpa using hx
      rw [hb] at h
      simp only [Option.some.injEq] at h
      subst hx; subst h
      exact List.mem_cons_self
    · have hb : (k == x.1) = false := by simpa using hx
      rw [hb] at h
      exact List.mem_cons_of_mem _ (ih h)

theorem lookup_none_iff {α β : Type} [DecidableEq α] {l : List (α × β)} {k : α} :
    l.lookup k = none ↔ k ∉ l.map Prod.fst := by
  induction l with
  | nil => simp
  | cons x l ih =>
    rw [List.lookup_cons]
    by_cases hx : k = x.1
    · have hb : (k == x.1) = true := by simpa using hx
      rw [hb]
      simp [hx]
    · have hb : (k == x.1) = false := by simpa using hx
      rw [hb]
      simp [ih, hx]

theorem lookup_keyed {α β : Type} [DecidableEq α] {l : List (α × β)} (hnd : (l.map Prod.fst).Nodup) {k : α} {v : β}
    (h : (k, v) ∈ l) : l.lookup k = some v := by
  induction l with
  | nil => cases h
  | cons x l ih =>
    rw [List.map_cons, List.nodup_cons] at hnd
    rw [List.lookup_cons]
    by_cases hx : k = x.1
    · have hb : (k == x.1) = true := by simpa using hx
      rw [hb]
      rcases List.mem_cons.1 h with rfl | h
      · rfl
      · exact absurd (List.mem_map.2 ⟨_, h, hx⟩) hnd.1
    · have hb : (k == x.1) = false := by simpa using hx
      rw [hb]
      rcases List.mem_cons.1 h with rfl | h
      · exact absurd rfl hx
      · exact ih hnd.2 h

/-! ## C43 -/

open scoped Classical in
/-- **C43 (exactly)**: for a site of a well-formed project, `get_concurrent` lists, in the order of the project, exactly
the other sites which recorded at a common time. -/
theorem C43_exactly_overlapping (p : Project W) (hp : p.WellFormed) (name : String) (s : Site W)
    (hs : (name, s) ∈ p.sites) :
    p.getConcurrent name = .ok ((p.sites.filter fun q =>
      decide (q.1 ≠ name ∧ q.2.Overlaps s)).map Prod.snd) := by
  unfold Project.getConcurrent dictGet
  rw [lookup_keyed hp.keys hs]
  simp only [bind, Except.bind, pure, Except.pure]
  congr 1
  rw [List.filter_map]
  congr 1
  apply List.filter_congr
  intro q hq
  have hn := hp.name q hq
  have ht := hp.times q hq
  have ht' := hp.times _ hs
  simp only at ht'
  simp only [Function.comp_apply, isConcurrent, hn]
  by_cases h1 : q.1 = name
  · simp [h1]
  · rw [if_neg h1]
    have hov := overlaps_iff ht ht'
    by_cases h2 : q.2.endTime < s.beginTime
    · rw [if_pos h2]
      symm
      apply decide_eq_false
      rintro ⟨-, h⟩
      exact absurd (hov.1 h).1 (not_le.2 h2)
    · rw [if_neg h2]
      by_cases h3 : s.endTime < q.2.beginTime
      · rw [if_pos h3]
        symm
        apply decide_eq_false
        rintro ⟨-, h⟩
        exact absurd (hov.1 h).2 (not_le.2 h3)
      · rw [if_neg h3]
        symm
        exact decide_eq_true ⟨h1, hov.2 ⟨not_lt.1 h2, not_lt.1 h3⟩⟩

open scoped Classical in
/-- **C43 (symmetric)**: in a well-formed project two sites are listed as concurrent to each other or not at all. -/
theorem C43_symmetric (p : Project W) (hp : p.WellFormed) (a b : String) (sa sb : Site W)
    (ha : (a, sa) ∈ p.sites) (hb : (b, sb) ∈ p.sites) (la lb : List (Site W)) (hla : p.getConcurrent a = .ok la)
    (hlb : p.getConcurrent b = .ok lb) : (∃ x ∈ la, x.name = b) ↔ (∃ x ∈ lb, x.name = a) := by
  rw [C43_exactly_overlapping p hp a sa ha] at hla
  rw [C43_exactly_overlapping p hp b sb hb] at hlb
  cases hla; cases hlb
  have key : ∀ (a b : String) (sa sb : Site W), (a, sa) ∈ p.sites → (b, sb) ∈ p.sites →
      ((∃ x ∈ ((p.sites.filter fun q => decide (q.1 ≠ a ∧ q.2.Overlaps sa)).map Prod.snd),
        x.name = b) ↔ b ≠ a ∧ sb.Overlaps sa) := by
    intro a b sa sb ha hb
    constructor
    · rintro ⟨x, hx, hxn⟩
      obtain ⟨⟨k, x'⟩, hq, rfl⟩ := List.mem_map.1 hx
      obtain ⟨hq1, hq2⟩ := List.mem_filter.1 hq
      have h := of_decide_eq_true hq2
      have hk := hp.name _ hq1
      simp only at hk hxn h
      have hkb : k = b := hk ▸ hxn
      subst hkb
      have : x' = sb := by
        have h1 := lookup_keyed hp.keys hq1
        have h2 := lookup_keyed hp.keys hb
        rw [h1] at h2
        exact Option.some.inj h2
      subst this
      exact h
    · rintro ⟨h1, h2⟩
      refine ⟨sb, List.mem_map.2 ⟨(b, sb), List.mem_filter.2 ⟨hb, ?_⟩, rfl⟩, hp.name _ hb⟩
      exact decide_eq_true ⟨h1, h2⟩
  rw [key a b sa sb ha hb, key b a sb sa hb ha]
  constructor
  · rintro ⟨h1, t, h2, h3⟩
    exact ⟨h1.symm, t, h3, h2⟩
  · rintro ⟨h1, t, h2, h3⟩
    exact ⟨h1.symm, t, h3, h2⟩

/-- **C43 (unknown site)**: a name which is not that of a site raises `KeyError`. -/
theorem C43_unknown_site (p : Project W) (name : String) (h : ∀ s, (name, s) ∉ p.sites) :
    p.getConcurrent name = .error .key := by
  unfold Project.getConcurrent dictGet
  have : p.sites.lookup name = none := by
    cases hl : p.sites.lookup name with
    | none => rfl
    | some s => exact absurd (lookup_some_mem hl) (h s)
  rw [this]
  rfl

/-! ## C54: queries -/

theorem mem_sortedNumbers (l : List ℚ) (x : ℚ) : x ∈ sortedNumbers l ↔ x ∈ l := by
  unfold sortedNumbers
  rw [List.mem_insertionSort, List.mem_dedup]

theorem sortedNumbers_lt (l : List ℚ) : (sortedNumbers l).Pairwise (· < ·) := by
  unfold sortedNumbers
  have h1 : (l.dedup.insertionSort (· ≤ ·)).Pairwise (· ≤ ·) := List.pairwise_insertionSort _ _
  have h2 : (l.dedup.insertionSort (· ≤ ·)).Nodup :=
    ((List.perm_insertionSort _ _).nodup_iff).2 (List.nodup_dedup l)
  have := h1.and h2
  exact this.imp fun h => lt_of_le_of_ne h.1 h.2

/-- **C54 (sampling frequencies of a site)**: they are listed once each in increasing order, and are exactly those of the
measurements. -/
theorem C54_site_fs (s : Site W) :
    s.fs.Pairwise (· < ·) ∧ ∀ x, x ∈ s.fs ↔ ∃ m ∈ s.measurements, m.2.md.fs = x := by
  refine ⟨sortedNumbers_lt _, fun x => ?_⟩
  unfold Site.fs
  rw [mem_sortedNumbers, List.mem_map]

/-- **C54 (sampling frequencies of a project)**: once each, increasing, exactly those of the measurements of the sites. -/
theorem C54_project_fs (p : Project W) :
    p.fs.Pairwise (· < ·) ∧ ∀ x, x ∈ p.fs ↔ ∃ s ∈ p.sites, ∃ m ∈ s.2.measurements, m.2.md.fs = x := by
  refine ⟨sortedNumbers_lt _, fun x => ?_⟩
  unfold Project.fs
  rw [mem_sortedNumbers, List.mem_flatMap]
  constructor
  · rintro ⟨s, hs, hx⟩
    exact ⟨s, hs, ((C54_site_fs s.2).2 x).1 hx⟩
  · rintro ⟨s, hs, hx⟩
    exact ⟨s, hs, ((C54_site_fs s.2).2 x).2 hx⟩

/-- **C54 (filtered sites)**: `get_sites(fs)` returns exactly the sites with a measurement of that sampling frequency, in
the order of the project; without a frequency all sites. -/
theorem C54_get_sites (p : Project W) :
    p.getSites none = p.sites ∧ ∀ x, (p.getSites (some x)).Sublist p.sites ∧
      (∀ q, q ∈ p.getSites (some x) ↔ q ∈ p.sites ∧ ∃ m ∈ q.2.measurements, m.2.md.fs = x) := by
  refine ⟨rfl, fun x => ⟨List.filter_sublist, fun q => ?_⟩⟩
  unfold Project.getSites
  rw [List.mem_filter]
  simp only [decide_eq_true_eq, (C54_site_fs q.2).2]

/-- **C54 (filtered measurements)**: `get_measurements(fs)` returns exactly the measurements of that sampling frequency,
in order; without a frequency all. -/
theorem C54_get_measurements (s : Site W) :
    s.getMeasurements none = s.measurements ∧ ∀ x, (s.getMeasurements (some x)).Sublist s.measurements ∧
      (∀ q, q ∈ s.getMeasurements (some x) ↔ q ∈ s.measurements ∧ q.2.md.fs = x) := by
  refine ⟨rfl, fun x => ⟨List.filter_sublist, fun q => ?_⟩⟩
  unfold Site.getMeasurements
  rw [List.mem_filter]
  simp only [decide_eq_true_eq]

/-- **C54 (by name)**: a site is found by its name or `SiteNotFoundError` is raised. -/
theorem C54_get_site (p : Project W) (hk : (p.sites.map Prod.fst).Nodup) (name : String) :
    (∀ s, p.getSite name = .ok s ↔ (name, s) ∈ p.sites) ∧
      ((∀ s, (name, s) ∉ p.sites) → p.getSite name = .error .siteNotFound) := by
  unfold Project.getSite
  constructor
  · intro s
    constructor
    · intro h
      cases hl : p.sites.lookup name with
      | none => rw [hl] at h; cases h
      | some x => rw [hl] at h; cases h; exact lookup_some_mem hl
    · intro h
      rw [lookup_keyed hk h]
  · intro h
    cases hl : p.sites.lookup name with
    | none => rfl
    | some s => exact absurd (lookup_some_mem hl) (h s)

/-- **C54 (by name)**: a measurement is found by its name or `MeasurementNotFoundError` is raised. -/
theorem C54_get_measurement (s : Site W) (hk : (s.measurements.map Prod.fst).Nodup) (name : String) :
    (∀ m, s.getMeasurement name = .ok m ↔ (name, m) ∈ s.measurements) ∧
      ((∀ m, (name, m) ∉ s.measurements) → s.getMeasurement name = .error .measNotFound) := by
  unfold Site.getMeasurement
  constructor
  · intro m
    constructor
    · intro h
      cases hl : s.measurements.lookup name with
      | none => rw [hl] at h; cases h
      | some x => rw [hl] at h; cases h; exact lookup_some_mem hl
    · intro h
      rw [lookup_keyed hk h]
  · intro h
    cases hl : s.measurements.lookup name with
    | none => rfl
    | some m => exact absurd (lookup_some_mem hl) (h m)

end Resistics
