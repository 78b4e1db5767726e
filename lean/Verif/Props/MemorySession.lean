import Verif.Props.Memory

/-!
# Objects behave as values (C77)
-/

namespace Resistics

/-! ## Specification -/

/-- Specification: decimated data as a caller sees them: the number of the recording, the increments, and what was computed. -/
structure ValDec where
  source : ℕ
  incs : List ℕ
  made : DecData ℚ

/-- Specification: the objects as values. -/
structure ValState where
  times : List (TimeData ℚ)
  decs : List ValDec

/-- Specification: one call, every time data being a value of its own. -/
def ValState.attempt (sp : SciPy) (s : ValState) : MemCall → Except Err ValState
  | .process q i => do
      let v ← pyIndex s.times (i : ℤ)
      let out ← q.run sp v
      return { times := s.times ++ [out], decs := s.decs }
  | .copy i => do
      let v ← pyIndex s.times (i : ℤ)
      return { times := s.times ++ [v], decs := s.decs }
  | .decimate useResample maxSingle p i => do
      let v ← pyIndex s.times (i : ℤ)
      let out ← Decimator.run sp useResample maxSingle p v
      return { times := s.times, decs := s.decs ++ [⟨i, p.decIncrements, out⟩] }
  | .setChan i chan row => do
      let v ← pyIndex s.times (i : ℤ)
      let out ← v.setChan chan row
      return { times := s.times.set i out, decs := s.decs }

/-- Specification: a history of calls. -/
def ValState.calls (sp : SciPy) : List MemCall → ValState → List (Option Err) × ValState
  | [], s => ([], s)
  | c :: rest, s =>
      match s.attempt sp c with
      | .ok s' => let out := ValState.calls sp rest s'; (none :: out.1, out.2)
      | .error e => let out := ValState.calls sp rest s; (some e :: out.1, out.2)

/-- Specification: the array of a level now: the recording's as long as all increments were one, otherwise what was computed. -/
def ValState.levelNow (s : ValState) (d : ValDec) (i : ℕ) (made : List (List ℚ)) : List (List ℚ) :=
  if ∀ j ≤ i, d.incs[j]? = some 1 then ((s.times[d.source]?).map (·.data)).getD made else made

/-- Specification: the decimated data now. -/
def ValState.decNow (s : ValState) (d : ValDec) : DecData ℚ where
  md := d.made.md
  data := d.made.data.map fun q => (q.1, s.levelNow d q.1 q.2)

/-- Specification: the objects of the caller hold these values. -/
structure MemState.Shows (s : MemState) (v : ValState) : Prop where
  times : List.Forall₂ (fun td x => TimeData.Holds td s.mem x) s.times v.times
  decs : List.Forall₂ (fun d x => DecData.Holds d s.mem (v.decNow x)) s.decs v.decs

/-- Specification: calls with processors as their constructors allow. -/
def MemCall.Valid : MemCall → Prop
  | .process q _ => q.Valid
  | _ => True

/-! ## The invariant -/

/-- How decimated data share with the recordings. -/
def DecFits (s : MemState) (v : ValState) (d : DecData MCell) (x : ValDec) : Prop :=
  d.Holds s.mem (v.decNow x) ∧
  ∀ q ∈ d.data, ((∀ j ≤ q.1, x.incs[j]? = some 1) → ∃ td, s.times[x.source]? = some td ∧ q.2 = td.data) ∧
    ((¬ ∀ j ≤ q.1, x.incs[j]? = some 1) → ∀ td ∈ s.times, NoneShared td.data q.2)

/-- Everything true between calls. -/
structure Fits (s : MemState) (v : ValState) : Prop where
  times : List.Forall₂ (fun td x => TimeData.Holds td s.mem x) s.times v.times
  own : ∀ td ∈ s.times, Own td.data
  consistent : ∀ x ∈ v.times, x.Consistent
  apart : s.times.Pairwise fun a b => NoneShared a.data b.data
  decs : List.Forall₂ (DecFits s v) s.decs v.decs

theorem forall2_index {α β : Type} {R : α → β → Prop} {a : List α} {b : List β} (h : List.Forall₂ R a b) (i : ℕ) :
    (pyIndex a (i : ℤ) = .error .index ∧ pyIndex b (i : ℤ) = .error .index) ∨
    ∃ x y, pyIndex a (i : ℤ) = .ok x ∧ pyIndex b (i : ℤ) = .ok y ∧ a[i]? = some x ∧ b[i]? = some y ∧ R x y := by
  have hl := h.length_eq
  by_cases hi : i < a.length
  · right
    have hi' : i < b.length := by omega
    exact ⟨a[i], b[i], pyIndex_natCast _ _ hi, pyIndex_natCast _ _ hi', List.getElem?_eq_getElem hi, List.getElem?_eq_getElem hi',
      (List.forall₂_iff_get.1 h).2 i hi hi'⟩
  · left
    exact ⟨pyIndex_natCast_ge _ _ (by omega), pyIndex_natCast_ge _ _ (by omega)⟩

theorem NoneShared.symm {a b : List (List MCell)} (h : NoneShared a b) : NoneShared b a := fun r hr c hc r' hr' hc' => h r' hr' c hc' r hr hc

theorem DecData.Holds.keys {d : DecData MCell} {m : Mem} {v : DecData ℚ} (h : d.Holds m v) :
    d.data.map Prod.fst = v.data.map Prod.fst := by
  have := congrArg (fun x => x.data.map Prod.fst) h
  simpa [DecData.over, List.map_map, Function.comp_def] using this

theorem DecData.Holds.level {d : DecData MCell} {m : Mem} {v : DecData ℚ} (h : d.Holds m v) (q : ℕ × List (List MCell)) (hq : q ∈ d.data) :
    ∃ rows, (q.1, rows) ∈ v.data ∧ mapRows m.get q.2 = mapRows some rows := by
  unfold DecData.Holds DecData.over at h
  rw [DecData.mk.injEq] at h
  have : (q.1, mapRows m.get q.2) ∈ v.data.map fun q => (q.1, mapRows some q.2) := by
    rw [← h.2]; exact List.mem_map.2 ⟨q, hq, rfl⟩
  obtain ⟨q', hq', he⟩ := List.mem_map.1 this
  rw [Prod.mk.injEq] at he
  refine ⟨q'.2, ?_, he.2.symm⟩
  rw [← he.1]
  exact hq'

/-- Decimated data with other values in another memory. -/
theorem holds_levels {d : DecData MCell} {m m' : Mem} {v : DecData ℚ} (f : ℕ → List (List ℚ) → List (List ℚ)) (h : d.Holds m v)
    (hf : ∀ q ∈ d.data, ∀ rows, (q.1, rows) ∈ v.data → mapRows m.get q.2 = mapRows some rows →
      mapRows m'.get q.2 = mapRows some (f q.1 rows)) :
    d.Holds m' { md := v.md, data := v.data.map fun q => (q.1, f q.1 q.2) } := by
  unfold DecData.Holds DecData.over at h ⊢
  rw [DecData.mk.injEq] at h ⊢
  refine ⟨h.1, ?_⟩
  obtain ⟨-, h⟩ := h
  obtain ⟨md, dd⟩ := d
  obtain ⟨vmd, vd⟩ := v
  simp only at h hf ⊢
  rw [List.map_map]
  have key : ∀ (a : List (ℕ × List (List MCell))) (b : List (ℕ × List (List ℚ))),
      (a.map fun q => (q.1, mapRows m.get q.2)) = b.map (fun q => (q.1, mapRows some q.2)) →
      (∀ q ∈ a, q ∈ dd) → (∀ q ∈ b, q ∈ vd) →
      (a.map fun q => (q.1, mapRows m'.get q.2)) = b.map ((fun q => (q.1, mapRows some q.2)) ∘ fun q => (q.1, f q.1 q.2)) := by
    intro a
    induction a with
    | nil =>
      intro b hb _ _
      cases b with
      | nil => rfl
      | cons y b => simp at hb
    | cons x a ih =>
      intro b hb ha hb'
      cases b with
      | nil => simp at hb
      | cons y b =>
        rw [List.map_cons, List.map_cons, List.cons.injEq, Prod.mk.injEq] at hb
        rw [List.map_cons, List.map_cons, ih b hb.2 (fun q hq => ha q (by simp [hq])) (fun q hq => hb' q (by simp [hq]))]
        congr 1
        have hy : (x.1, y.2) ∈ vd := by
          rw [hb.1.1]; exact hb' y (by simp)
        simp only [Function.comp_apply, Prod.mk.injEq]
        refine ⟨hb.1.1, ?_⟩
        rw [← hb.1.1]
        exact hf x (ha x (by simp)) y.2 hy hb.1.2
  exact key dd vd h (fun _ h => h) (fun _ h => h)

theorem levelNow_again {v v' : ValState} (hlen : v.times.length ≤ v'.times.length) (x : ValDec) (i : ℕ) (made : List (List ℚ)) :
    v'.levelNow x i (v.levelNow x i made) = v'.levelNow x i made := by
  unfold ValState.levelNow
  split_ifs with h
  · cases hs : v'.times[x.source]? with
    | some t => rfl
    | none =>
      rw [List.getElem?_eq_none_iff] at hs
      rw [List.getElem?_eq_none (by omega : v.times.length ≤ x.source)]
      rfl
  · rfl

theorem dec_step {s : MemState} {v v' : ValState} {m' : Mem} {d : DecData MCell} {x : ValDec} (h : d.Holds s.mem (v.decNow x))
    (hlen : v.times.length ≤ v'.times.length)
    (hq : ∀ q ∈ d.data, ∀ rows, mapRows s.mem.get q.2 = mapRows some rows → mapRows m'.get q.2 = mapRows some (v'.levelNow x q.1 rows)) :
    d.Holds m' (v'.decNow x) := by
  have := holds_levels (m' := m') (v'.levelNow x) h fun q hq' rows _ hr => hq q hq' rows hr
  simpa only [ValState.decNow, List.map_map, Function.comp_def, levelNow_again hlen] using this

/-- A new object. -/
theorem fits_new {s : MemState} {v : ValState} (h : Fits s v) {m' : Mem} (hk : s.mem.Keeps m') {out : TimeData MCell} {x : TimeData ℚ}
    (hout : out.Holds m' x) (hfresh : Fresh s.mem out.data) (hnd : out.data.flatten.Nodup) (hx : x.Consistent) :
    Fits ⟨m', s.times ++ [out], s.decs⟩ ⟨v.times ++ [x], v.decs⟩ := by
  have hread : ∀ td ∈ s.times, ∀ r ∈ td.data, ∀ c ∈ r, s.mem.get c ≠ none := by
    intro td htd
    obtain ⟨n, hn, rfl⟩ := List.mem_iff_getElem.1 htd
    have hn' : n < v.times.length := by rw [← h.times.length_eq]; exact hn
    exact readable (holds_rows ((List.forall₂_iff_get.1 h.times).2 n hn hn')).2
  refine ⟨?_, ?_, ?_, ?_, ?_⟩
  · refine List.rel_append (h.times.imp fun a b hab => hab.keeps hk) ?_
    exact List.Forall₂.cons hout List.Forall₂.nil
  · intro td htd
    rcases List.mem_append.1 htd with htd | htd
    · exact h.own td htd
    · rw [List.mem_singleton.1 htd]
      exact ⟨hnd, fun r hr c hc => (hfresh r hr c hc).2⟩
  · intro y hy
    rcases List.mem_append.1 hy with hy | hy
    · exact h.consistent y hy
    · rw [List.mem_singleton.1 hy]; exact hx
  · rw [List.pairwise_append]
    refine ⟨h.apart, List.pairwise_singleton _ _, fun a ha b hb => ?_⟩
    rw [List.mem_singleton.1 hb]
    exact fresh_apart (hread a ha) hfresh
  · refine h.decs.imp fun d y hdy => ?_
    obtain ⟨h1, h2⟩ := hdy
    refine ⟨?_, fun q hq => ⟨fun hone => ?_, fun hone td htd => ?_⟩⟩
    · refine dec_step h1 (by simp) fun q hq rows hr => ?_
      rw [keeps_rows hk hr]
      congr 1
      by_cases hone : ∀ j ≤ q.1, y.incs[j]? = some 1
      · obtain ⟨td, htd, he⟩ := (h2 q hq).1 hone
        have hi : y.source < s.times.length := (List.getElem?_eq_some_iff.1 htd).1
        have hi' : y.source < v.times.length := by rw [← h.times.length_eq]; exact hi
        unfold ValState.levelNow
        rw [if_pos hone]
        simp only [List.getElem?_append_left hi', List.getElem?_eq_getElem hi', Option.map_some, Option.getD_some]
        have hh := holds_rows ((List.forall₂_iff_get.1 h.times).2 y.source hi hi')
        have htd' : s.times[y.source] = td := (List.getElem?_eq_some_iff.1 htd).2
        rw [he] at hr
        have hh2 := hh.2
        simp only [List.get_eq_getElem, htd'] at hh2
        rw [hr] at hh2
        have inj1 : Function.Injective (List.map (some : ℚ → Option ℚ)) := List.map_injective_iff.2 (Option.some_injective _)
        exact List.map_injective_iff.2 inj1 hh2
      · unfold ValState.levelNow
        rw [if_neg hone]
    · obtain ⟨td, htd, he⟩ := (h2 q hq).1 hone
      exact ⟨td, by rw [List.getElem?_append_left (List.getElem?_eq_some_iff.1 htd).1]; exact htd, he⟩
    · rcases List.mem_append.1 htd with htd | htd
      · exact (h2 q hq).2 hone td htd
      · rw [List.mem_singleton.1 htd]
        obtain ⟨rows, -, hr⟩ := h1.level q hq
        exact (fresh_apart (readable hr) hfresh).symm

/-- New decimated data. -/
theorem fits_decimated {s : MemState} {v : ValState} (h : Fits s v) (sp : SciPy) (useResample : Bool) (maxSingle : ℕ) (p : DecParams ℚ)
    (i : ℕ) (td : TimeData MCell) (x : TimeData ℚ) (htd : s.times[i]? = some td) (hx : v.times[i]? = some x) (hold : td.Holds s.mem x)
    (w : DecData ℚ) (hw : Decimator.run sp useResample maxSingle p x = .ok w) :
    ∃ out m', Mem.decimate sp useResample maxSingle p td s.mem = .ok (out, m') ∧
      Fits ⟨m', s.times, s.decs ++ [out]⟩ ⟨v.times, v.decs ++ [⟨i, p.decIncrements, w⟩]⟩ := by
  obtain ⟨out, m', a1, a2, a3, a4, -, a5⟩ := (C77_decimated sp useResample maxSingle p td x s.mem hold).2 w hw
  refine ⟨out, m', a1, ?_⟩
  have hread : ∀ t ∈ s.times, ∀ r ∈ t.data, ∀ c ∈ r, s.mem.get c ≠ none := by
    intro t ht
    obtain ⟨n, hn, rfl⟩ := List.mem_iff_getElem.1 ht
    have hn' : n < v.times.length := by rw [← h.times.length_eq]; exact hn
    exact readable (holds_rows ((List.forall₂_iff_get.1 h.times).2 n hn hn')).2
  have hkey : ∀ (i : ℕ) (rows : List (List MCell)), out.data[i]? = some (i, rows) →
      ((∀ j ≤ i, p.decIncrements[j]? = some 1) → rows = td.data) ∧
      ((¬ ∀ j ≤ i, p.decIncrements[j]? = some 1) → Fresh s.mem rows) := by
    intro i
    induction i with
    | zero =>
      intro rows hr
      obtain ⟨s1, -, s3⟩ := a5 0 rows hr
      refine ⟨fun hh => s1 (hh 0 le_rfl) rfl, fun hh => (s3 fun h1 => hh fun j hj => ?_).1⟩
      obtain rfl : j = 0 := by omega
      exact h1
    | succ i ih =>
      intro rows hr
      obtain ⟨-, s2, s3⟩ := a5 (i + 1) rows hr
      by_cases hi : p.decIncrements[i + 1]? = some 1
      · obtain ⟨t1, t2⟩ := ih rows (s2 hi i rfl)
        refine ⟨fun hh => t1 fun j hj => hh j (by omega), fun hh => t2 fun h1 => hh fun j hj => ?_⟩
        rcases Nat.lt_or_ge i j with hlt | hge
        · obtain rfl : j = i + 1 := by omega
          exact hi
        · exact h1 j hge
      · exact ⟨fun hh => absurd (hh (i + 1) le_rfl) hi, fun _ => (s3 hi).1⟩
  have hlevel : ∀ q ∈ out.data, out.data[q.1]? = some (q.1, q.2) := by
    intro q hq
    obtain ⟨n, hn, rfl⟩ := List.mem_iff_getElem.1 hq
    have : (out.data.map Prod.fst)[n]? = some out.data[n].1 := by
      rw [List.getElem?_map, List.getElem?_eq_getElem hn]; rfl
    have h4 := congrArg List.length a4
    simp only [List.length_map, List.length_range] at h4
    rw [a4, List.getElem?_range (by omega)] at this
    have hn' : n = out.data[n].1 := Option.some.inj this
    rw [← hn', List.getElem?_eq_getElem hn]
    exact congrArg some (Prod.ext hn'.symm rfl)
  refine ⟨h.times.imp fun a b hab => hab.keeps a3, h.own, h.consistent, h.apart, List.rel_append (h.decs.imp fun d y hdy => ?_) ?_⟩
  · obtain ⟨h1, h2⟩ := hdy
    refine ⟨?_, h2⟩
    have := holds_levels (m' := m') (fun _ rows => rows) h1 fun q _ rows _ hr => keeps_rows a3 hr
    show d.Holds m' (v.decNow y)
    simpa using this
  · refine List.Forall₂.cons ⟨?_, fun q hq => ?_⟩ List.Forall₂.nil
    · have : (ValState.mk v.times (v.decs ++ [⟨i, p.decIncrements, w⟩])).decNow ⟨i, p.decIncrements, w⟩ =
          { md := w.md, data := w.data.map fun q => (q.1, ValState.levelNow ⟨v.times, v.decs ++ [⟨i, p.decIncrements, w⟩]⟩
            ⟨i, p.decIncrements, w⟩ q.1 q.2) } := rfl
      rw [this]
      refine holds_levels _ a2 fun q hq rows _ hr => ?_
      rw [hr]
      congr 1
      unfold ValState.levelNow
      split_ifs with hone
      · simp only [hx, Option.map_some, Option.getD_some]
        have he := (hkey q.1 q.2 (hlevel q hq)).1 hone
        rw [he] at hr
        have hh := keeps_rows a3 (holds_rows hold).2
        rw [hr] at hh
        have inj1 : Function.Injective (List.map (some : ℚ → Option ℚ)) := List.map_injective_iff.2 (Option.some_injective _)
        exact List.map_injective_iff.2 inj1 hh
      · rfl
    · obtain ⟨k1, k2⟩ := hkey q.1 q.2 (hlevel q hq)
      exact ⟨fun hone => ⟨td, htd, k1 hone⟩, fun hone t ht => fresh_apart (hread t ht) (k2 hone)⟩

/-- A channel set in place. -/
theorem fits_setChan {s : MemState} {v : ValState} (h : Fits s v) (i : ℕ) (td : TimeData MCell) (x : TimeData ℚ) (htd : s.times[i]? = some td)
    (hx : v.times[i]? = some x) (hold : td.Holds s.mem x) (chan : String) (row : List ℚ) (w : TimeData ℚ) (hw : x.setChan chan row = .ok w) :
    ∃ m', s.mem.setChan td chan row = .ok m' ∧ Fits ⟨m', s.times, s.decs⟩ ⟨v.times.set i w, v.decs⟩ := by
  have hmem := List.mem_of_getElem? htd
  have hcons := h.consistent x (List.mem_of_getElem? hx)
  obtain ⟨e1, e2⟩ := holds_rows hold
  have hlen : ∀ r ∈ td.data, (r.length : ℤ) = td.md.nSamples := by
    intro r hr
    have : r.map s.mem.get ∈ mapRows some x.data := by rw [← e2]; exact List.mem_map.2 ⟨r, hr, rfl⟩
    obtain ⟨y, hy, he⟩ := List.mem_map.1 this
    have hl := congrArg List.length he
    simp only [List.length_map] at hl
    rw [← hl, e1]
    exact hcons.cols y hy
  obtain ⟨m', cells, a1, a2, a3, a4, -⟩ := (C77_set_chan s.mem td x chan row hold (h.own td hmem) hlen).2 w hw
  have hin : cells ∈ td.data := by
    unfold TimeData.getChan at a2
    simp only [bind, Except.bind] at a2
    split at a2
    · cases a2
    · split at a2
      · cases a2
      · exact List.mem_of_getElem? (pyIndex_ok a2)
  have hout : ∀ rows : List (List MCell), NoneShared td.data rows → mapRows m'.get rows = mapRows s.mem.get rows := fun rows hap =>
    mapRows_congr fun r hr c hc => a4 c fun hc' => hap cells hin c hc' r hr hc
  obtain ⟨hi, hti⟩ := List.getElem?_eq_some_iff.1 htd
  have hvi : i < v.times.length := by rw [← h.times.length_eq]; exact hi
  have hother : ∀ (k : ℕ) (t : TimeData MCell), s.times[k]? = some t → k ≠ i → NoneShared td.data t.data := by
    intro k t hk hne
    obtain ⟨hk1, hk2⟩ := List.getElem?_eq_some_iff.1 hk
    have hp := List.pairwise_iff_getElem.1 h.apart
    rcases Nat.lt_or_gt_of_ne hne with hlt | hlt
    · have := hp k i hk1 hi hlt
      rw [hk2, hti] at this
      exact this.symm
    · have := hp i k hi hk1 hlt
      rw [hk2, hti] at this
      exact this
  have hwcons : w.Consistent := by
    unfold TimeData.setChan at hw
    simp only [bind, Except.bind, pure, Except.pure, throw, throwThe, MonadExceptOf.throw] at hw
    split at hw
    · cases hw
    · split at hw
      · cases hw
      · rename_i hsz
        split at hw
        · cases hw
        · split at hw
          · cases hw
            refine ⟨hcons.fs_pos, by simpa using hcons.rows, fun r hr => ?_, hcons.last⟩
            rcases List.mem_or_eq_of_mem_set hr with hr | rfl
            · exact hcons.cols r hr
            · simpa using hsz
          · cases hw
  refine ⟨m', a1, ?_, h.own, ?_, h.apart, h.decs.imp fun d y hdy => ?_⟩
  · refine List.forall₂_iff_get.2 ⟨by rw [List.length_set]; exact h.times.length_eq, fun k hk hk' => ?_⟩
    simp only [List.get_eq_getElem]
    by_cases hki : i = k
    · subst hki
      rw [List.getElem_set_self]
      rw [hti]
      exact a3
    · rw [List.getElem_set_ne hki]
      have hv : k < v.times.length := by rw [← h.times.length_eq]; exact hk
      have hh := (List.forall₂_iff_get.1 h.times).2 k hk hv
      simp only [List.get_eq_getElem] at hh
      have hap := hother k s.times[k] (List.getElem?_eq_getElem hk) (fun hh => hki hh.symm)
      obtain ⟨f1, f2⟩ := holds_rows hh
      unfold TimeData.Holds TimeData.over
      rw [TimeData.mk.injEq]
      exact ⟨f1, by rw [hout _ hap]; exact f2⟩
  · intro y hy
    rcases List.mem_or_eq_of_mem_set hy with hy | rfl
    · exact h.consistent y hy
    · exact hwcons
  · obtain ⟨h1, h2⟩ := hdy
    refine ⟨?_, h2⟩
    refine dec_step h1 (by simp) fun q hq rows hr => ?_
    unfold ValState.levelNow
    split_ifs with hone
    · obtain ⟨t, ht, he⟩ := (h2 q hq).1 hone
      by_cases hsi : y.source = i
      · rw [hsi] at ht
        rw [htd] at ht
        cases ht
        rw [he, hsi, List.getElem?_set_self hvi]
        exact (holds_rows a3).2
      · have hap := hother y.source t ht hsi
        obtain ⟨ht1, ht2⟩ := List.getElem?_eq_some_iff.1 ht
        have hv : y.source < v.times.length := by rw [← h.times.length_eq]; exact ht1
        rw [List.getElem?_set_ne (fun hh => hsi hh.symm), List.getElem?_eq_getElem hv, he, hout _ hap]
        have hh := (List.forall₂_iff_get.1 h.times).2 y.source ht1 hv
        simp only [List.get_eq_getElem, ht2] at hh
        exact (holds_rows hh).2
    · rw [hout _ ((h2 q hq).2 hone td hmem)]
      exact hr

/-- One call. -/
theorem fits_attempt {s : MemState} {v : ValState} (h : Fits s v) (sp : SciPy) (hl : sp.Lawful) (c : MemCall) (hc : c.Valid) :
    (∀ e, v.attempt sp c = .error e → s.attempt sp c = .error e) ∧
    ∀ v', v.attempt sp c = .ok v' → ∃ s', s.attempt sp c = .ok s' ∧ Fits s' v' := by
  cases c with
  | process q i =>
    simp only [ValState.attempt, MemState.attempt]
    rcases forall2_index h.times i with ⟨h1, h2⟩ | ⟨td, x, h1, h2, h3, h4, h5⟩
    · rw [h1, h2]
      exact ⟨fun e he => (by cases he; rfl), fun v' hv => (by cases hv)⟩
    · rw [h1, h2]
      simp only [bind, Except.bind]
      obtain ⟨p1, p2⟩ := C77_processors s.mem sp q td x h5
      cases hq : q.run sp x with
      | error e =>
        rw [p1 e hq]
        exact ⟨fun e he => (by cases he; rfl), fun v' hv => (by cases hv)⟩
      | ok w =>
        obtain ⟨out, m', a1, a2, a3, a4, a5⟩ := p2 w hq
        rw [a1]
        refine ⟨fun e he => (by cases he), fun v' hv => ?_⟩
        cases hv
        exact ⟨_, rfl, fits_new h a3 a2 a4 a5 (Proc.run_consistent sp hl q hc x w (h.consistent x (List.mem_of_getElem? h4)) hq).1⟩
  | copy i =>
    simp only [ValState.attempt, MemState.attempt]
    rcases forall2_index h.times i with ⟨h1, h2⟩ | ⟨td, x, h1, h2, h3, h4, h5⟩
    · rw [h1, h2]
      exact ⟨fun e he => (by cases he; rfl), fun v' hv => (by cases hv)⟩
    · rw [h1, h2]
      simp only [bind, Except.bind]
      obtain ⟨out, m', a1, a2, a3, a4, a5⟩ := C77_copy s.mem td x h5
      rw [a1]
      refine ⟨fun e he => (by cases he), fun v' hv => ?_⟩
      cases hv
      exact ⟨_, rfl, fits_new h a3 a2 a4 a5 (h.consistent x (List.mem_of_getElem? h4))⟩
  | decimate u k p i =>
    simp only [ValState.attempt, MemState.attempt]
    rcases forall2_index h.times i with ⟨h1, h2⟩ | ⟨td, x, h1, h2, h3, h4, h5⟩
    · rw [h1, h2]
      exact ⟨fun e he => (by cases he; rfl), fun v' hv => (by cases hv)⟩
    · rw [h1, h2]
      simp only [bind, Except.bind]
      cases hd : Decimator.run sp u k p x with
      | error e =>
        rw [(C77_decimated sp u k p td x s.mem h5).1 e hd]
        exact ⟨fun e he => (by cases he; rfl), fun v' hv => (by cases hv)⟩
      | ok w =>
        obtain ⟨out, m', a1, a2⟩ := fits_decimated h sp u k p i td x h3 h4 h5 w hd
        rw [a1]
        refine ⟨fun e he => (by cases he), fun v' hv => ?_⟩
        cases hv
        exact ⟨_, rfl, a2⟩
  | setChan i chan row =>
    simp only [ValState.attempt, MemState.attempt]
    rcases forall2_index h.times i with ⟨h1, h2⟩ | ⟨td, x, h1, h2, h3, h4, h5⟩
    · rw [h1, h2]
      exact ⟨fun e he => (by cases he; rfl), fun v' hv => (by cases hv)⟩
    · rw [h1, h2]
      simp only [bind, Except.bind]
      cases hs : x.setChan chan row with
      | error e =>
        have hcons := h.consistent x (List.mem_of_getElem? h4)
        obtain ⟨e1, e2⟩ := holds_rows h5
        have hlen : ∀ r ∈ td.data, (r.length : ℤ) = td.md.nSamples := by
          intro r hr
          have : r.map s.mem.get ∈ mapRows some x.data := by rw [← e2]; exact List.mem_map.2 ⟨r, hr, rfl⟩
          obtain ⟨y, hy, he⟩ := List.mem_map.1 this
          have hl := congrArg List.length he
          simp only [List.length_map] at hl
          rw [← hl, e1]
          exact hcons.cols y hy
        rw [(C77_set_chan s.mem td x chan row h5 (h.own td (List.mem_of_getElem? h3)) hlen).1 e hs]
        exact ⟨fun e he => (by cases he; rfl), fun v' hv => (by cases hv)⟩
      | ok w =>
        obtain ⟨m', a1, a2⟩ := fits_setChan h i td x h3 h4 h5 chan row w hs
        rw [a1]
        refine ⟨fun e he => (by cases he), fun v' hv => ?_⟩
        cases hv
        exact ⟨_, rfl, a2⟩

theorem fits_calls {s : MemState} {v : ValState} (h : Fits s v) (sp : SciPy) (hl : sp.Lawful) (cs : List MemCall) (hcs : ∀ c ∈ cs, c.Valid) :
    (s.calls sp cs).1 = (v.calls sp cs).1 ∧ Fits (s.calls sp cs).2 (v.calls sp cs).2 := by
  induction cs generalizing s v with
  | nil => exact ⟨rfl, h⟩
  | cons c cs ih =>
    obtain ⟨h1, h2⟩ := fits_attempt h sp hl c (hcs c (by simp))
    simp only [MemState.calls, ValState.calls]
    cases hv : v.attempt sp c with
    | error e =>
      rw [h1 e hv]
      obtain ⟨i1, i2⟩ := ih h fun c hc => hcs c (by simp [hc])
      exact ⟨by simp only [i1], i2⟩
    | ok v' =>
      obtain ⟨s', a1, a2⟩ := h2 v' hv
      rw [a1]
      obtain ⟨i1, i2⟩ := ih a2 fun c hc => hcs c (by simp [hc])
      exact ⟨by simp only [i1], i2⟩

/-- **C77 (time data behave as values)**: starting with recordings that have arrays of their own and share nothing, after any history of
processing, copying, decimating and setting channels – going on after exceptions – the exceptions were those of the calls on values, and
all time data hold what they would hold if every object were a value of its own.  Decimated data hold what was computed, except that the
levels up to the first increment other than one are the recording as it is now. -/
theorem C77_history (sp : SciPy) (hl : sp.Lawful) (m : Mem) (tds : List (TimeData MCell)) (vs : List (TimeData ℚ))
    (hold : List.Forall₂ (fun td v => TimeData.Holds td m v) tds vs) (hown : ∀ td ∈ tds, Own td.data)
    (hapart : tds.Pairwise fun a b => NoneShared a.data b.data) (hcons : ∀ v ∈ vs, v.Consistent) (cs : List MemCall) (hcs : ∀ c ∈ cs, c.Valid) :
    (MemState.calls sp cs ⟨m, tds, []⟩).1 = (ValState.calls sp cs ⟨vs, []⟩).1 ∧
    (MemState.calls sp cs ⟨m, tds, []⟩).2.Shows (ValState.calls sp cs ⟨vs, []⟩).2 := by
  obtain ⟨h1, h2⟩ := fits_calls (s := ⟨m, tds, []⟩) (v := ⟨vs, []⟩) ⟨hold, hown, hcons, hapart, List.Forall₂.nil⟩ sp hl cs hcs
  exact ⟨h1, h2.times, h2.decs.imp fun _ _ h => h.1⟩

/-! ## A concrete case -/

/-- A memory with the recording `demoRec` in it. -/
def demoMem : Mem where
  ram := [1, 2, 3, 4, 5, 6, 10, 20, 30, 40, 50, 60]
  disk := fun q => if q = ["data.npy"] then some [[1, 2, 3], [4, 5, 6]] else none

/-- The recording in that memory. -/
def demoCells : TimeData MCell where
  md := demoRec.md
  data := [[.ram 0, .ram 1, .ram 2, .ram 3, .ram 4, .ram 5], [.ram 6, .ram 7, .ram 8, .ram 9, .ram 10, .ram 11]]

theorem demoCells_holds : demoCells.Holds demoMem demoRec := by
  unfold TimeData.Holds
  decide +kernel

theorem demoCells_own : Own demoCells.data := by
  refine ⟨by decide +kernel, ?_⟩
  intro r hr c hc
  simp only [demoCells, List.mem_cons, List.not_mem_nil, or_false] at hr
  rcases hr with rfl | rfl <;> simp only [List.mem_cons, List.not_mem_nil, or_false] at hc <;>
    rcases hc with rfl | rfl | rfl | rfl | rfl | rfl <;> exact ⟨_, rfl⟩

/-- Decimation by one and then by two. -/
def demoDecParams : DecParams ℚ where
  fs := 2
  evalFreqs := []
  decFactors := [1, 2]
  decIncrements := [1, 2]
  decFs := [2, 1]
  nLevels := 2
  perLevel := 1
  minSamples := 2

/-- A history: decimate, copy, set a channel of the recording, give a channel of the wrong size, remove the mean of the copy. -/
def demoCalls : List MemCall :=
  [.decimate false 3 demoDecParams 0, .copy 0, .setChan 0 "Ex" [7, 7, 8, 8, 9, 9], .setChan 0 "Ex" [1], .process .removeMean 1]

example : (MemState.calls demoSciPy demoCalls ⟨demoMem, [demoCells], []⟩).1 = (ValState.calls demoSciPy demoCalls ⟨[demoRec], []⟩).1 ∧
    (MemState.calls demoSciPy demoCalls ⟨demoMem, [demoCells], []⟩).2.Shows (ValState.calls demoSciPy demoCalls ⟨[demoRec], []⟩).2 :=
  C77_history demoSciPy demoSciPy_lawful demoMem [demoCells] [demoRec] (.cons demoCells_holds .nil)
    (fun td htd => by rw [List.mem_singleton.1 htd]; exact demoCells_own) (List.pairwise_singleton _ _)
    (fun v hv => by rw [List.mem_singleton.1 hv]; exact demoRec_consistent) demoCalls (by
      intro c hc
      simp only [demoCalls, List.mem_cons, List.not_mem_nil, or_false] at hc
      rcases hc with rfl | rfl | rfl | rfl | rfl <;> exact trivial)

/-- Level 0 follows the channel that was set, level 1 does not, and neither does the copy. -/
example : (ValState.calls demoSciPy demoCalls ⟨[demoRec], []⟩).1 = [none, none, none, some .value, none] ∧
    ((ValState.calls demoSciPy demoCalls ⟨[demoRec], []⟩).2.decs.map fun d =>
      ((ValState.calls demoSciPy demoCalls ⟨[demoRec], []⟩).2.decNow d).data) =
      [[(0, [[7, 7, 8, 8, 9, 9], [10, 20, 30, 40, 50, 60]]), (1, [[1, 3, 5], [10, 30, 50]])]] ∧
    ((ValState.calls demoSciPy demoCalls ⟨[demoRec], []⟩).2.times.map fun t => t.data.map fun r => r.headD 0) =
      [[7, 10], [1, 10], [-5 / 2, -25]] := by
  decide +kernel

/-- A recording read from a file. -/
def demoMapped : TimeData MCell where
  md := { demoRec.md with nSamples := 3, lastTime := 11, history := ["TimeReaderNumpy"] }
  data := [[.file ["data.npy"] 0, .file ["data.npy"] 1, .file ["data.npy"] 2], [.file ["data.npy"] 3, .file ["data.npy"] 4, .file ["data.npy"] 5]]

/-- It cannot be changed, saving it to its own file loses it, and saving it elsewhere does not. -/
example : demoMem.readNumpy ["data.npy"] { demoRec.md with nSamples := 3, lastTime := 11 } {} = .ok demoMapped ∧
    (demoMem.setChan demoMapped "Ex" [1, 1, 1]).toOption.isSome = false ∧
    (demoMem.saveNumpy ["data.npy"] demoMapped).2.disk ["data.npy"] = none ∧
    (demoMem.saveNumpy ["other.npy"] demoMapped).2.disk ["other.npy"] = some [[1, 2, 3], [4, 5, 6]] := by
  refine ⟨by decide +kernel, by decide +kernel, by decide +kernel, by decide +kernel⟩

theorem DecData.Consistent.over {V W : Type} (f : V → W) {d : DecData V} (h : d.Consistent) : (d.over f).Consistent := by
  refine ⟨h.n_levels, h.meta_ok, h.chans_pos, fun i lm hlm => ?_⟩
  obtain ⟨rows, h1, h2, h3⟩ := h.array i lm hlm
  refine ⟨mapRows f rows, ?_, (List.length_map ..).trans h2, ?_⟩
  · simp only [DecData.over]
    rw [lookup_image, h1]
    rfl
  · intro row hrow
    obtain ⟨r, hr, rfl⟩ := List.mem_map.1 hrow
    rw [List.length_map]
    exact h3 r hr

/-- Windows of four samples overlapping by two: the cells 3 and 4 of the first channel are in the first and in the second window. -/
example : (demoDec.over fun z => MCell.ram z.toNat).Consistent ∧
    windowerRun 0 ⟨1, 2, [4], [2]⟩ (demoDec.over fun z => MCell.ram z.toNat) = .ok (demoWin.over fun z => MCell.ram z.toNat) ∧
    ((demoWin.over fun z => MCell.ram z.toNat).getLocal 0 0).toOption =
      some (.d2 [[.ram 1, .ram 2, .ram 3, .ram 4], [.ram 21, .ram 22, .ram 23, .ram 24]]) ∧
    ((demoWin.over fun z => MCell.ram z.toNat).getLocal 0 1).toOption =
      some (.d2 [[.ram 3, .ram 4, .ram 5, .ram 6], [.ram 23, .ram 24, .ram 25, .ram 26]]) := by
  refine ⟨demoDec_consistent.over _, ?_, by decide +kernel, by decide +kernel⟩
  rw [windower_over, demoWin_run]
  rfl

end Resistics
