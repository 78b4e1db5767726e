import Verif.Props.Order
import Verif.Props.ProjectDemo

/-!
# C85: concrete cases, and measurements that overlap
-/

namespace Resistics

/-- Two measurements of one site with window 4 in common, and different values in it. -/
def overlapData (site meas : String) : Except Err (SpecData ℚ) :=
  if site = "A" ∧ meas = "m1" then .ok (demoEvals ["Ex", "Hy"] 3 [[[10, 11], [12, 13]], [[20, 21], [22, 23]]])
  else if site = "A" ∧ meas = "m2" then .ok (demoEvals ["Ex", "Hy"] 4 [[[30, 31], [32, 33]], [[40, 41], [42, 43]]])
  else .error .metaRead

def overlapStore : EvalStore ℚ := ⟨fun s m => (overlapData s m).map fun d => d.md, overlapData⟩

/-- The values of the output channel at the first evaluation frequency that gathering would use. -/
def overlapRows (proj : GProject) : Except Err (List (Option (List ℚ))) := do
  let sel ← selectorRun overlapStore proj ["A"] demoDecP
  let g ← projectGather overlapStore proj sel ⟨["Ex"], ["Hy"], ["Hy"]⟩ "A" none none
  dictGet g.outData.data 0

/-- **C85 (overlaps)**. When measurements of a site have a window in common, the values gathered for it, and with them the transfer
function, depend on the order in which the directory of the site lists the measurements. -/
theorem C85_overlap_order_matters :
    ∃ (p q : GProject), p.SameAs q ∧ p.sites.map Prod.fst = q.sites.map Prod.fst ∧
      overlapRows p = .ok [some [10], some [20], some [40]] ∧ overlapRows q = .ok [some [10], some [30], some [40]] := by
  refine ⟨⟨[("A", [("m1", 8), ("m2", 8)])]⟩, ⟨[("A", [("m2", 8), ("m1", 8)])]⟩, ?_, rfl, by decide +kernel, by decide +kernel⟩
  intro site
  by_cases hs : site = "A"
  · subst hs
    right
    exact ⟨_, _, rfl, rfl, List.Perm.swap _ _ _⟩
  · left
    have : (site == "A") = false := by simpa using hs
    simp [List.lookup_cons, this]

/-! ## Concrete cases -/

theorem demo_reverse_listing : IsListing (entriesLs demoEntries.reverse) (entriesFs demoEntries) := by
  have h1 := entries_listing demoEntries (by decide)
  intro p
  have h2 : entriesLs demoEntries.reverse p = (entriesLs demoEntries p).reverse := by
    unfold entriesLs
    rw [List.filterMap_reverse]
  rw [h2]
  exact ⟨List.nodup_reverse.2 (h1 p).1, fun n => by rw [List.mem_reverse]; exact (h1 p).2 n⟩

/-- two orders of listing: the sites come in different orders, and the projects are the same -/
example : demoLoaded.map (fun p => p.iter.map Site.name) = .ok ["A", "B", "C"] ∧
    (loadProject (entriesLs demoEntries.reverse) (fun _ => (0, 1)) demoReaders (entriesFs demoEntries) ["p"]).map
      (fun p => p.iter.map fun s => (s.name, s.measurements.map Prod.fst)) = .ok [("C", ["m1"]), ("B", ["m1"]), ("A", ["m2", "m1"])] ∧
    ∃ p q, demoLoaded = .ok p ∧
      loadProject (entriesLs demoEntries.reverse) (fun _ => (0, 1)) demoReaders (entriesFs demoEntries) ["p"] = .ok q ∧ p.SameAs q := by
  refine ⟨by decide +kernel, by decide +kernel, ?_⟩
  obtain ⟨p, hp⟩ := (C44_loads_iff (entriesLs demoEntries) (fun _ => (0, 1)) demoReaders (entriesFs demoEntries) ["p"]).2
    ⟨{ refTime := 0, country := "IE" }, rfl, rfl, rfl⟩
  obtain ⟨q, hq, h⟩ := (C85_load _ _ _ _ _ _ (entries_listing _ (by decide)) demo_reverse_listing).1 p hp
  exact ⟨p, q, hp, hq, h⟩

/-- the contents of a directory: two sub-directories that can be read and one that cannot, and a file -/
example : dirContents (entriesLs demoEntries) (entriesFs demoEntries) ["p", "time", "A"] =
      .ok ([["p", "time", "A", "junk"], ["p", "time", "A", "m1"], ["p", "time", "A", "m2"]], [["p", "time", "A", "log"]]) ∧
    dirContents (entriesLs demoEntries) (entriesFs demoEntries) ["p", "time", "notes"] = .error .notDir ∧
    assertFile (entriesFs demoEntries) ["p", "time"] = .error .notFile ∧
    isFileAt (entriesFs demoEntries) ["p", "time", "notes"] = true := by
  decide +kernel

/-- measurements without a window in common -/
example : NoOverlap demoStore demoProj 8 "A" := by
  have hm : ∀ name md, HasMeas demoStore demoProj 8 "A" name md →
      (name = "m1" ∧ md = demoEvalMeta ["Ex", "Hy"] 3 2) ∨ (name = "m2" ∧ md = demoEvalMeta ["Ex", "Hy"] 5 1) := by
    rintro name md ⟨ms, h1, h2, h3⟩
    have h1 : ms = [("m1", 8), ("m2", 8), ("broken", 8)] := (Option.some.inj h1).symm
    subst h1
    simp only [List.mem_cons, Prod.mk.injEq, and_true, List.not_mem_nil, or_false] at h2
    rcases h2 with rfl | rfl | rfl
    · left; exact ⟨rfl, (Except.ok.inj h3).symm⟩
    · right; exact ⟨rfl, (Except.ok.inj h3).symm⟩
    · cases h3
  intro name md name' md' level g h h' hg hg'
  obtain ⟨h1, lm, h2, h3, h4⟩ := hg
  obtain ⟨h1', lm', h2', h3', h4'⟩ := hg'
  rcases hm _ _ h with ⟨rfl, rfl⟩ | ⟨rfl, rfl⟩ <;> rcases hm _ _ h' with ⟨rfl, rfl⟩ | ⟨rfl, rfl⟩ <;> try rfl
  all_goals
    have : level = 0 := by simp only [demoEvalMeta] at h1; omega
    subst this
    simp only [demoEvalMeta, List.getElem?_cons_zero, Option.some.injEq] at h2 h2'
    subst h2 h2'
    simp only at h3 h4 h3' h4'
    omega

end Resistics
