import Verif.Model.Memory
import Verif.Props.Windower
import Verif.Props.Decimate
import Verif.Props.Chosen

/-!
# Which objects share their samples (C77)
-/

namespace Resistics

/-! ## Specification -/

/-- Specification: an array with a function applied to every element. -/
def mapRows {V W : Type} (f : V → W) (rows : List (List V)) : List (List W) := rows.map fun row => row.map f

/-- Specification: time data with a function applied to every sample. -/
def TimeData.over {V W : Type} (f : V → W) (td : TimeData V) : TimeData W where
  md := td.md
  data := mapRows f td.data

/-- Specification: decimated data with a function applied to every sample. -/
def DecData.over {V W : Type} (f : V → W) (d : DecData V) : DecData W where
  md := d.md
  data := d.data.map fun q => (q.1, mapRows f q.2)

/-- Specification: windows with a function applied to every sample. -/
def WinArr.over {V W : Type} (f : V → W) : WinArr V → WinArr W
  | .d3 w => .d3 (w.map (mapRows f))
  | .d2 w => .d2 (mapRows f w)
  | .d1 w => .d1 (w.map f)
  | .d0 x => .d0 (x.map f)

/-- Specification: windowed data with a function applied to every sample. -/
def WinData.over {V W : Type} (f : V → W) (d : WinData V) : WinData W where
  md := d.md
  data := d.data.map fun q => (q.1, q.2.over f)

/-- Specification: what an object looks like at some time: all its cells can be read and hold these values. -/
def TimeData.Holds (td : TimeData MCell) (m : Mem) (v : TimeData ℚ) : Prop := td.over m.get = v.over some

/-- See `TimeData.Holds`. -/
def DecData.Holds (d : DecData MCell) (m : Mem) (v : DecData ℚ) : Prop := d.over m.get = v.over some

/-- See `TimeData.Holds`. -/
def WinData.Holds (d : WinData MCell) (m : Mem) (v : WinData ℚ) : Prop := d.over m.get = v.over some

/-- Specification: everything that could be read reads the same later. -/
def Mem.Keeps (m m' : Mem) : Prop := ∀ c x, m.get c = some x → m'.get c = some x

/-- Specification: no cell of the array existed in that memory, and none is in a file. -/
def Fresh (m : Mem) (rows : List (List MCell)) : Prop := ∀ row ∈ rows, ∀ c ∈ row, m.get c = none ∧ ∃ n, c = .ram n

/-- Specification: two arrays have no cell in common. -/
def NoneShared (a b : List (List MCell)) : Prop := ∀ r ∈ a, ∀ c ∈ r, ∀ r' ∈ b, c ∉ r'

/-! ## Reading and allocating -/

theorem read_iff {m : Mem} {c : MCell} {x : ℚ} : m.read c = .ok x ↔ m.get c = some x := by
  unfold Mem.read
  cases m.get c with
  | none => simp
  | some y => simp

theorem loadRow_iff {m : Mem} (row : List MCell) (v : List ℚ) : row.mapM m.read = .ok v ↔ row.map m.get = v.map some := by
  induction row generalizing v with
  | nil => 
    rw [List.mapM_nil]
    cases v <;> simp [pure, Except.pure]
  | cons c row ih =>
    rw [List.mapM_cons, except_bind_ok]
    constructor
    · rintro ⟨x, hx, h⟩
      obtain ⟨vs, hvs, h⟩ := except_bind_ok.1 h
      cases h
      rw [List.map_cons, List.map_cons, read_iff.1 hx, (ih vs).1 hvs]
    · intro h
      cases v with
      | nil => simp at h
      | cons x vs =>
        rw [List.map_cons, List.map_cons, List.cons.injEq] at h
        exact ⟨x, read_iff.2 h.1, except_bind_ok.2 ⟨vs, (ih vs).2 h.2, rfl⟩⟩

theorem load_iff {m : Mem} (rows : List (List MCell)) (v : List (List ℚ)) :
    m.load rows = .ok v ↔ mapRows m.get rows = mapRows some v := by
  unfold Mem.load mapRows
  induction rows generalizing v with
  | nil =>
    rw [List.mapM_nil]
    cases v <;> simp [pure, Except.pure]
  | cons c row ih =>
    rw [List.mapM_cons, except_bind_ok]
    constructor
    · rintro ⟨x, hx, h⟩
      obtain ⟨vs, hvs, h⟩ := except_bind_ok.1 h
      cases h
      rw [List.map_cons, List.map_cons, (loadRow_iff _ _).1 hx, (ih vs).1 hvs]
    · intro h
      cases v with
      | nil => simp at h
      | cons x vs =>
        rw [List.map_cons, List.map_cons, List.cons.injEq] at h
        exact ⟨x, (loadRow_iff _ _).2 h.1, except_bind_ok.2 ⟨vs, (ih vs).2 h.2, rfl⟩⟩

theorem loadTime_iff {m : Mem} (td : TimeData MCell) (v : TimeData ℚ) : m.loadTime td = .ok v ↔ td.Holds m v := by
  unfold Mem.loadTime TimeData.Holds TimeData.over
  rw [except_bind_ok]
  constructor
  · rintro ⟨rows, h, h'⟩
    cases h'
    rw [(load_iff _ _).1 h]
  · intro h
    rw [TimeData.mk.injEq] at h
    refine ⟨v.data, (load_iff _ _).2 h.2, ?_⟩
    rw [h.1]
    rfl

theorem Mem.Keeps.refl (m : Mem) : m.Keeps m := fun _ _ h => h

theorem Mem.Keeps.trans {a b c : Mem} (h : a.Keeps b) (h' : b.Keeps c) : a.Keeps c := fun x y hx => h' x y (h x y hx)

theorem keeps_rows {m m' : Mem} (h : m.Keeps m') {rows : List (List MCell)} {v : List (List ℚ)}
    (hr : mapRows m.get rows = mapRows some v) : mapRows m'.get rows = mapRows some v := by
  rw [← hr]
  unfold mapRows at hr ⊢
  apply List.map_congr_left
  intro row hrow
  apply List.map_congr_left
  intro c hc
  have : row.map m.get ∈ v.map fun r => r.map some := by
    rw [← hr]; exact List.mem_map.2 ⟨row, hrow, rfl⟩
  obtain ⟨vr, -, hvr⟩ := List.mem_map.1 this
  have hc' : m.get c ∈ vr.map some := by rw [hvr]; exact List.mem_map.2 ⟨c, hc, rfl⟩
  obtain ⟨x, -, hx⟩ := List.mem_map.1 hc'
  rw [← hx, h c x hx.symm]

theorem TimeData.Holds.keeps {td : TimeData MCell} {m m' : Mem} {v : TimeData ℚ} (h : td.Holds m v) (hk : m.Keeps m') : td.Holds m' v := by
  unfold TimeData.Holds TimeData.over at h ⊢
  rw [TimeData.mk.injEq] at h ⊢
  exact ⟨h.1, keeps_rows hk h.2⟩

theorem holds_rows {td : TimeData MCell} {m : Mem} {v : TimeData ℚ} (h : td.Holds m v) :
    td.md = v.md ∧ mapRows m.get td.data = mapRows some v.data := by
  unfold TimeData.Holds TimeData.over at h
  rw [TimeData.mk.injEq] at h
  exact h

theorem numberRows_flatten {β : Type} (mk : ℕ → MCell) (n : ℕ) (rows : List (List β)) :
    (numberRows mk n rows).flatten = (List.range' n rows.flatten.length).map mk := by
  induction rows generalizing n with
  | nil => rfl
  | cons row rest ih =>
    rw [numberRows, List.flatten_cons, ih, List.flatten_cons, List.length_append, ← List.map_append, List.range'_append_1]

theorem numberRows_values (mk : ℕ → MCell) (get : MCell → Option ℚ) (n : ℕ) (rows : List (List ℚ))
    (h : ∀ k, k < rows.flatten.length → get (mk (n + k)) = rows.flatten[k]?) :
    mapRows get (numberRows mk n rows) = mapRows some rows := by
  induction rows generalizing n with
  | nil => rfl
  | cons row rest ih =>
    unfold mapRows at ih ⊢
    rw [numberRows, List.map_cons, List.map_cons]
    congr 1
    · rw [List.map_map]
      apply List.ext_getElem?
      intro k
      rw [List.getElem?_map, List.getElem?_map]
      by_cases hk : k < row.length
      · have h1 := h k (by rw [List.flatten_cons, List.length_append]; omega)
        rw [List.flatten_cons, List.getElem?_append_left hk] at h1
        rw [List.getElem?_range' (by simpa using hk)]
        simp only [Option.map_some, Function.comp_apply, one_mul]
        rw [h1, List.getElem?_eq_getElem hk]
        rfl
      · rw [List.getElem?_eq_none (by simpa using hk), List.getElem?_eq_none (by simpa using hk)]
        rfl
    · apply ih
      intro k hk
      have h1 := h (row.length + k) (by rw [List.flatten_cons, List.length_append]; omega)
      rw [List.flatten_cons, List.getElem?_append_right (by omega), Nat.add_sub_cancel_left] at h1
      rw [← h1, Nat.add_assoc]

theorem alloc_keeps (m : Mem) (rows : List (List ℚ)) : m.Keeps (m.alloc rows).2 := by
  intro c x h
  cases c with
  | file p n => exact h
  | ram n =>
    have h' : m.ram[n]? = some x := h
    show (m.ram ++ rows.flatten)[n]? = some x
    rw [List.getElem?_append_left (List.getElem?_eq_some_iff.1 h').1, h']

theorem alloc_values (m : Mem) (rows : List (List ℚ)) : mapRows (m.alloc rows).2.get (m.alloc rows).1 = mapRows some rows := by
  apply numberRows_values
  intro k _
  show (m.ram ++ rows.flatten)[m.ram.length + k]? = _
  rw [List.getElem?_append_right (by omega), Nat.add_sub_cancel_left]

theorem alloc_fresh (m : Mem) (rows : List (List ℚ)) : Fresh m (m.alloc rows).1 := by
  intro row hrow c hc
  have : c ∈ (m.alloc rows).1.flatten := List.mem_flatten.2 ⟨row, hrow, hc⟩
  unfold Mem.alloc at this
  rw [numberRows_flatten] at this
  obtain ⟨n, hn, rfl⟩ := List.mem_map.1 this
  refine ⟨?_, n, rfl⟩
  show m.ram[n]? = none
  rw [List.mem_range'_1] at hn
  exact List.getElem?_eq_none hn.1

theorem alloc_nodup (m : Mem) (rows : List (List ℚ)) : (m.alloc rows).1.flatten.Nodup := by
  unfold Mem.alloc
  rw [numberRows_flatten]
  exact (List.nodup_range' (step := 1)).map fun a b h => by cases h; rfl

theorem allocTime_holds (m : Mem) (v : TimeData ℚ) : (m.allocTime v).1.Holds (m.allocTime v).2 v := by
  unfold TimeData.Holds TimeData.over
  rw [TimeData.mk.injEq]
  exact ⟨rfl, alloc_values m v.data⟩

/-! ## Processing -/

/-- **C77 (processors make new arrays)**: a time data processor applied to time data computes what it computes from the values, the result
has its own cells that did not exist before, and nothing that existed changes; it fails exactly when the processor fails on the values. -/
theorem C77_processors (m : Mem) (sp : SciPy) (q : Proc) (td : TimeData MCell) (v : TimeData ℚ) (h : td.Holds m v) :
    (∀ e, q.run sp v = .error e → m.process sp q td = .error e) ∧
    ∀ w, q.run sp v = .ok w → ∃ out m', m.process sp q td = .ok (out, m') ∧ out.Holds m' w ∧ m.Keeps m' ∧ Fresh m out.data ∧
      out.data.flatten.Nodup := by
  unfold Mem.process
  rw [(loadTime_iff td v).2 h]
  simp only [bind, Except.bind]
  constructor
  · intro e he
    rw [he]
  · intro w hw
    rw [hw]
    exact ⟨_, _, rfl, allocTime_holds m w, alloc_keeps m w.data, alloc_fresh m w.data, alloc_nodup m w.data⟩

/-- **C77 (copies are independent)**: `copy` returns an object with the same values and its own cells. -/
theorem C77_copy (m : Mem) (td : TimeData MCell) (v : TimeData ℚ) (h : td.Holds m v) :
    ∃ out m', m.copy td = .ok (out, m') ∧ out.Holds m' v ∧ m.Keeps m' ∧ Fresh m out.data ∧ out.data.flatten.Nodup := by
  unfold Mem.copy
  rw [(loadTime_iff td v).2 h]
  exact ⟨_, _, rfl, allocTime_holds m v, alloc_keeps m v.data, alloc_fresh m v.data, alloc_nodup m v.data⟩

/-- **C77 (the processors of a configuration)**: with at least one processor the result is new; without processors it is the object given. -/
theorem C77_run_time_processors (m : Mem) (sp : SciPy) (qs : List Proc) (td : TimeData MCell) (v : TimeData ℚ) (h : td.Holds m v) :
    (∀ e, runTimeProcessors sp qs v = .error e → Mem.processAll sp qs td m = .error e) ∧
    ∀ w, runTimeProcessors sp qs v = .ok w → ∃ out m', Mem.processAll sp qs td m = .ok (out, m') ∧ out.Holds m' w ∧ m.Keeps m' ∧
      (qs ≠ [] → Fresh m out.data ∧ out.data.flatten.Nodup) ∧ (qs = [] → out = td ∧ m' = m) := by
  unfold runTimeProcessors
  induction qs generalizing m td v with
  | nil =>
    refine ⟨fun e he => (by cases he), fun w hw => ?_⟩
    cases hw
    exact ⟨td, m, rfl, h, Mem.Keeps.refl m, fun hh => absurd rfl hh, fun _ => ⟨rfl, rfl⟩⟩
  | cons q qs ih =>
    obtain ⟨h1, h2⟩ := C77_processors m sp q td v h
    simp only [List.foldlM_cons, Mem.processAll]
    cases hq : q.run sp v with
    | error e =>
      rw [h1 e hq]
      exact ⟨fun e' he => by cases he; rfl, fun w hw => by cases hw⟩
    | ok w1 =>
      obtain ⟨out1, m1, a1, a2, a3, a4, a5⟩ := h2 w1 hq
      rw [a1]
      obtain ⟨i1, i2⟩ := ih m1 out1 w1 a2
      refine ⟨fun e he => i1 e he, fun w hw => ?_⟩
      obtain ⟨out, m', b1, b2, b3, b4, b5⟩ := i2 w hw
      refine ⟨out, m', b1, b2, a3.trans b3, fun _ => ?_, fun hh => by cases hh⟩
      by_cases hqs : qs = []
      · obtain ⟨rfl, rfl⟩ := b5 hqs
        exact ⟨a4, a5⟩
      · obtain ⟨c1, c2⟩ := b4 hqs
        refine ⟨fun row hrow c hc => ⟨?_, (c1 row hrow c hc).2⟩, c2⟩
        have hn := (c1 row hrow c hc).1
        cases hg : m.get c with
        | none => rfl
        | some x => rw [a3 c x hg] at hn; cases hn

/-! ## Decimation -/

theorem fresh_apart {m : Mem} {a b : List (List MCell)} (ha : ∀ r ∈ a, ∀ c ∈ r, m.get c ≠ none) (hb : Fresh m b) : NoneShared a b := by
  intro r hr c hc r' hr' hc'
  exact ha r hr c hc (hb r' hr' c hc').1

theorem readable {m : Mem} {rows : List (List MCell)} {v : List (List ℚ)} (h : mapRows m.get rows = mapRows some v) :
    ∀ r ∈ rows, ∀ c ∈ r, m.get c ≠ none := by
  intro r hr c hc hn
  have : r.map m.get ∈ mapRows some v := by rw [← h]; exact List.mem_map.2 ⟨r, hr, rfl⟩
  obtain ⟨w, -, hw⟩ := List.mem_map.1 this
  have h2 : m.get c ∈ w.map some := by rw [hw]; exact List.mem_map.2 ⟨c, hc, rfl⟩
  obtain ⟨x, -, hx⟩ := List.mem_map.1 h2
  rw [hn] at hx
  cases hx

theorem Fresh.before {m m' : Mem} (h : m.Keeps m') {rows : List (List MCell)} (hf : Fresh m' rows) : Fresh m rows := by
  intro row hrow c hc
  obtain ⟨h1, h2⟩ := hf row hrow c hc
  refine ⟨?_, h2⟩
  cases hg : m.get c with
  | none => rfl
  | some x => rw [h c x hg] at h1; cases h1

/-- One step of the decimator. -/
theorem decimateStep_spec (step : TimeData ℚ → ℕ → Except Err (TimeData ℚ)) (h1 : ∀ v, step v 1 = .ok v) (factor : ℕ)
    (td : TimeData MCell) (m : Mem) (v : TimeData ℚ) (h : td.Holds m v) :
    (∀ e, step v factor = .error e → Mem.decimateStep step factor td m = .error e) ∧
    ∀ w, step v factor = .ok w → ∃ out m', Mem.decimateStep step factor td m = .ok (out, m') ∧ out.Holds m' w ∧ m.Keeps m' ∧
      (factor = 1 → out = td) ∧ (factor ≠ 1 → Fresh m out.data ∧ out.data.flatten.Nodup) := by
  unfold Mem.decimateStep
  by_cases hf : factor = 1
  · subst hf
    rw [h1 v, if_pos rfl]
    refine ⟨fun e he => (by cases he), fun w hw => ?_⟩
    cases hw
    exact ⟨td, m, rfl, h, Mem.Keeps.refl m, fun _ => rfl, fun hh => absurd rfl hh⟩
  · rw [if_neg hf, (loadTime_iff td v).2 h]
    simp only [bind, Except.bind]
    refine ⟨fun e he => by rw [he], fun w hw => ?_⟩
    rw [hw]
    exact ⟨_, _, rfl, allocTime_holds m w, alloc_keeps m w.data, fun hh => absurd hh hf,
      fun _ => ⟨alloc_fresh m w.data, alloc_nodup m w.data⟩⟩

/-- Arrays of the levels and their values. -/
def LevelsHold (m : Mem) (a : List (ℕ × List (List MCell))) (b : List (ℕ × List (List ℚ))) : Prop :=
  (a.map fun q => (q.1, mapRows m.get q.2)) = b.map fun q => (q.1, mapRows some q.2)

theorem LevelsHold.keeps {m m' : Mem} (hk : m.Keeps m') {a : List (ℕ × List (List MCell))} {b : List (ℕ × List (List ℚ))}
    (h : LevelsHold m a b) : LevelsHold m' a b := by
  unfold LevelsHold at h ⊢
  induction a generalizing b with
  | nil => exact h
  | cons x a ih =>
    cases b with
    | nil => simp at h
    | cons y b =>
      rw [List.map_cons, List.map_cons, List.cons.injEq, Prod.mk.injEq] at h ⊢
      exact ⟨⟨h.1.1, keeps_rows hk h.1.2⟩, ih h.2⟩

theorem LevelsHold.snoc {m : Mem} {a : List (ℕ × List (List MCell))} {b : List (ℕ × List (List ℚ))} (h : LevelsHold m a b) (i : ℕ)
    {rows : List (List MCell)} {v : List (List ℚ)} (hr : mapRows m.get rows = mapRows some v) :
    LevelsHold m (a ++ [(i, rows)]) (b ++ [(i, v)]) := by
  unfold LevelsHold at h ⊢
  rw [List.map_append, List.map_append, h]
  simp [hr]

/-- How the new levels share their arrays: `prev` is the array before the first of them, `older` all arrays before, `m` the memory before. -/
def Shares (p : DecParams ℚ) (m : Mem) (older : List (List (List MCell))) (prev : List (List MCell)) :
    List (ℕ × List (List MCell)) → Prop
  | [] => True
  | (i, rows) :: rest =>
      (p.decIncrements[i]? = some 1 → rows = prev) ∧
      (p.decIncrements[i]? ≠ some 1 → Fresh m rows ∧ rows.flatten.Nodup ∧ ∀ a ∈ older, NoneShared a rows) ∧
      Shares p m (rows :: older) rows rest

theorem Shares.before {p : DecParams ℚ} {m m' : Mem} (h : m.Keeps m') {older : List (List (List MCell))} {prev : List (List MCell)}
    {l : List (ℕ × List (List MCell))} (hs : Shares p m' older prev l) : Shares p m older prev l := by
  induction l generalizing prev older with
  | nil => trivial
  | cons q l ih =>
    obtain ⟨i, rows⟩ := q
    exact ⟨hs.1, fun hh => ⟨(hs.2.1 hh).1.before h, (hs.2.1 hh).2⟩, ih hs.2.2⟩

theorem incr_get {l : List ℕ} {i : ℕ} {f : ℕ} (h : pyIndex l (i : ℤ) = .ok f) : l[i]? = some f := by
  by_cases hi : i < l.length
  · rw [pyIndex_natCast _ _ hi] at h
    rw [List.getElem?_eq_getElem hi]
    exact congrArg some (Except.ok.inj h)
  · rw [pyIndex_natCast_ge _ _ (by omega)] at h
    cases h

theorem incr_eq {l : List ℕ} {i : ℕ} {f : ℕ} (h : pyIndex l (i : ℤ) = .ok f) (h1 : l[i]? = some 1) : f = 1 := by
  rw [incr_get h] at h1
  exact Option.some.inj h1

theorem decimateLoop_spec (step : TimeData ℚ → ℕ → Except Err (TimeData ℚ)) (h1 : ∀ v, step v 1 = .ok v) (p : DecParams ℚ)
    (levels : List ℕ) (td : TimeData MCell) (v : TimeData ℚ) (acc : MemAcc) (vacc : DecAcc) (m : Mem)
    (older : List (List (List MCell))) (hold : ∀ a ∈ older, ∀ r ∈ a, ∀ c ∈ r, m.get c ≠ none) (h : td.Holds m v)
    (hacc : LevelsHold m acc.data vacc.data) (hlev : acc.levels = vacc.levels) :
    (∀ e, decimatorLoop step p levels v vacc = .error e → Mem.decimateLoop step p levels td acc m = .error e) ∧
    ∀ vout, decimatorLoop step p levels v vacc = .ok vout → ∃ out m' new, Mem.decimateLoop step p levels td acc m = .ok (out, m') ∧
      LevelsHold m' out.data vout.data ∧ out.levels = vout.levels ∧ m.Keeps m' ∧ out.data = acc.data ++ new ∧
      Shares p m older td.data new ∧
      ∀ q ∈ new, ∀ r ∈ q.2, ∀ c ∈ r, m'.get c ≠ none := by
  induction levels generalizing td v acc vacc m older with
  | nil =>
    simp only [decimatorLoop, Mem.decimateLoop]
    refine ⟨fun e he => (by cases he), fun vout hv => ?_⟩
    cases hv
    exact ⟨acc, m, [], rfl, hacc, hlev, Mem.Keeps.refl m, by simp, trivial, by simp⟩
  | cons i rest ih =>
    simp only [decimatorLoop, Mem.decimateLoop]
    cases hf : pyIndex p.decIncrements (i : ℤ) with
    | error e =>
      simp only [bind, Except.bind]
      exact ⟨fun e' he => (by cases he; rfl), fun _ hv => (by cases hv)⟩
    | ok factor =>
      obtain ⟨s1, s2⟩ := decimateStep_spec step h1 factor td m v h
      cases hs : step v factor with
      | error e =>
        simp only [bind, Except.bind, hs]
        rw [s1 e hs]
        exact ⟨fun e' he => (by cases he; rfl), fun _ hv => (by cases hv)⟩
      | ok w =>
        obtain ⟨out, m1, a1, a2, a3, a4, a5⟩ := s2 w hs
        simp only [bind, Except.bind, hs]
        rw [a1]
        obtain ⟨b1, b2⟩ := holds_rows a2
        simp only [b1]
        by_cases hmin : w.md.nSamples < p.minSamples
        · simp only [hmin, if_true]
          refine ⟨fun e he => (by cases he), fun vout hv => ?_⟩
          cases hv
          exact ⟨acc, m1, [], rfl, hacc.keeps a3, hlev, a3, by simp, trivial, by simp⟩
        · simp only [hmin, if_false]
          cases hfs : pyIndex p.decFs (i : ℤ) with
          | error e => exact ⟨fun e' he => (by cases he; rfl), fun _ hv => (by cases hv)⟩
          | ok _ =>
            simp only
            have hacc' : LevelsHold m1 (acc.data ++ [(i, out.data)]) (vacc.data ++ [(i, w.data)]) := (hacc.keeps a3).snoc i b2
            have hold' : ∀ a ∈ out.data :: older, ∀ r ∈ a, ∀ c ∈ r, m1.get c ≠ none := by
              intro a ha
              rcases List.mem_cons.1 ha with rfl | ha
              · exact readable b2
              · intro r hr c hc hn
                cases hg : m.get c with
                | none => exact hold a ha r hr c hc hg
                | some x => rw [a3 c x hg] at hn; cases hn
            obtain ⟨i1, i2⟩ := ih out w ⟨acc.data ++ [(i, out.data)], acc.levels ++ [levelMetaOf w.md]⟩
              ⟨vacc.data ++ [(i, w.data)], vacc.levels ++ [levelMetaOf w.md]⟩ m1 (out.data :: older) hold' a2 hacc' (by rw [hlev])
            refine ⟨i1, fun vout hv => ?_⟩
            obtain ⟨res, m2, new, c1, c2, c3, c4, c5, c6, c8⟩ := i2 vout hv
            refine ⟨res, m2, (i, out.data) :: new, c1, c2, c3, a3.trans c4, by rw [c5]; simp, ⟨?_, ?_, c6.before a3⟩, ?_⟩
            · intro hh
              rw [a4 (incr_eq hf hh)]
            · intro hh
              obtain ⟨f1, f2⟩ := a5 fun hh' => hh (by rw [← hh']; exact incr_get hf)
              exact ⟨f1, f2, fun a ha => fresh_apart (hold a ha) f1⟩
            · intro q hq
              rcases List.mem_cons.1 hq with rfl | hq
              · exact readable (keeps_rows c4 b2)
              · exact c8 q hq

/-- The sharing, level by level. -/
theorem Shares.get {p : DecParams ℚ} {m : Mem} {older : List (List (List MCell))} {prev : List (List MCell)}
    {l : List (ℕ × List (List MCell))} (hs : Shares p m older prev l) (k i : ℕ) (rows : List (List MCell)) (hk : l[k]? = some (i, rows)) :
    (p.decIncrements[i]? = some 1 → k = 0 → rows = prev) ∧
    (p.decIncrements[i]? = some 1 → ∀ j, k = j + 1 → ∃ i', l[j]? = some (i', rows)) ∧
    (p.decIncrements[i]? ≠ some 1 → Fresh m rows ∧ rows.flatten.Nodup ∧ (∀ a ∈ older, NoneShared a rows) ∧
      ∀ j < k, ∀ i' rows', l[j]? = some (i', rows') → NoneShared rows' rows) := by
  induction l generalizing older prev k with
  | nil => simp at hk
  | cons q l ih =>
    obtain ⟨i0, rows0⟩ := q
    obtain ⟨s1, s2, s3⟩ := hs
    cases k with
    | zero =>
      simp only [List.getElem?_cons_zero, Option.some.injEq, Prod.mk.injEq] at hk
      obtain ⟨rfl, rfl⟩ := hk
      exact ⟨fun h _ => s1 h, fun _ j hj => (by omega), fun h => ⟨(s2 h).1, (s2 h).2.1, (s2 h).2.2, fun j hj => (by omega)⟩⟩
    | succ k =>
      rw [List.getElem?_cons_succ] at hk
      obtain ⟨t1, t2, t3⟩ := ih s3 k hk
      refine ⟨fun _ h0 => (by omega), fun h j hj => ?_, fun h => ⟨(t3 h).1, (t3 h).2.1, fun a ha => (t3 h).2.2.1 a (by simp [ha]), ?_⟩⟩
      · obtain rfl : k = j := by omega
        cases k with
        | zero => exact ⟨i0, by rw [t1 h rfl]; rfl⟩
        | succ k =>
          obtain ⟨i', hi'⟩ := t2 h k rfl
          exact ⟨i', hi'⟩
      · intro j hj i' rows' hj'
        cases j with
        | zero =>
          simp only [List.getElem?_cons_zero, Option.some.injEq, Prod.mk.injEq] at hj'
          obtain ⟨-, rfl⟩ := hj'
          exact (t3 h).2.2.1 _ (by simp)
        | succ j => exact (t3 h).2.2.2 j (by omega) i' rows' hj'

/-- The decimated data of time data. -/
theorem decimateWith_spec (step : TimeData ℚ → ℕ → Except Err (TimeData ℚ)) (h1 : ∀ v, step v 1 = .ok v) (p : DecParams ℚ)
    (td : TimeData MCell) (v : TimeData ℚ) (m : Mem) (h : td.Holds m v) :
    (∀ e, decimatorRun step p v = .error e → Mem.decimateWith step p td m = .error e) ∧
    ∀ w, decimatorRun step p v = .ok w → ∃ out m', Mem.decimateWith step p td m = .ok (out, m') ∧ out.Holds m' w ∧ m.Keeps m' ∧
      Shares p m [td.data] td.data out.data := by
  obtain ⟨s1, s2⟩ := decimateLoop_spec step h1 p (List.range p.nLevels) td v {} {} m [td.data]
    (fun a ha => by rw [List.mem_singleton.1 ha]; exact readable (holds_rows h).2) h rfl rfl
  unfold decimatorRun Mem.decimateWith
  cases hl : decimatorLoop step p (List.range p.nLevels) v {} with
  | error e =>
    rw [s1 e hl]
    exact ⟨fun e' he => (by cases he; rfl), fun w hw => (by cases hw)⟩
  | ok vacc =>
    obtain ⟨acc, m', new, a1, a2, a3, a4, a5, a6, a7⟩ := s2 vacc hl
    rw [a1]
    simp only [bind, Except.bind]
    have hkeys : acc.data.map Prod.fst = vacc.data.map Prod.fst := by
      have := congrArg (List.map Prod.fst) a2
      simpa [LevelsHold, List.map_map, Function.comp_def] using this
    have hget : ∀ (a : List (ℕ × List (List MCell))) (b : List (ℕ × List (List ℚ))), a.map Prod.fst = b.map Prod.fst →
        (∃ x, dictGet a 0 = .ok x) ∧ (∃ y, dictGet b 0 = .ok y) ∨ ∃ e, dictGet a 0 = .error e ∧ dictGet b 0 = .error e := by
      intro a
      induction a with
      | nil =>
        intro b hb
        cases b with
        | nil => exact .inr ⟨_, rfl, rfl⟩
        | cons y b => simp at hb
      | cons x a ih =>
        intro b hb
        cases b with
        | nil => simp at hb
        | cons y b =>
          obtain ⟨x1, x2⟩ := x
          obtain ⟨y1, y2⟩ := y
          rw [List.map_cons, List.map_cons, List.cons.injEq] at hb
          obtain ⟨rfl, hb⟩ := hb
          by_cases h0 : (0 : ℕ) = x1
          · subst h0
            exact .inl ⟨⟨x2, by simp [dictGet]⟩, ⟨y2, by simp [dictGet]⟩⟩
          · have := ih b hb
            have hne : ((0 : ℕ) == x1) = false := by simpa using h0
            unfold dictGet at this ⊢
            rw [List.lookup_cons, List.lookup_cons]
            simpa only [hne] using this
    have hmd := (holds_rows h).1
    rcases hget acc.data vacc.data hkeys with ⟨⟨x, hx⟩, ⟨y, hy⟩⟩ | ⟨e, hx, hy⟩
    · rw [hx, hy]
      refine ⟨fun e' he => (by cases he), fun w hw => ?_⟩
      cases hw
      refine ⟨_, m', rfl, ?_, a4, ?_⟩
      · unfold DecData.Holds DecData.over
        rw [DecData.mk.injEq]
        refine ⟨?_, a2⟩
        simp only [a3, hmd]
      · have : acc.data = new := by rw [a5]; rfl
        simp only [this]
        exact a6
    · rw [hx, hy]
      exact ⟨fun e' he => (by cases he; rfl), fun w hw => (by cases hw)⟩

/-- **C77 (decimated data)**: decimating computes what it computes from the values and changes nothing that existed.  A level with increment
one is the very array of the level before, level 0 then being the array of the recording; every other level has its own cells, which did
not exist before and which neither the recording nor an earlier level has. -/
theorem C77_decimated (sp : SciPy) (useResample : Bool) (maxSingle : ℕ) (p : DecParams ℚ) (td : TimeData MCell) (v : TimeData ℚ) (m : Mem)
    (h : td.Holds m v) :
    (∀ e, Decimator.run sp useResample maxSingle p v = .error e → Mem.decimate sp useResample maxSingle p td m = .error e) ∧
    ∀ w, Decimator.run sp useResample maxSingle p v = .ok w → ∃ out m', Mem.decimate sp useResample maxSingle p td m = .ok (out, m') ∧
      out.Holds m' w ∧ m.Keeps m' ∧ out.data.map Prod.fst = List.range out.md.nLevels ∧ 1 ≤ out.md.nLevels ∧
      ∀ (i : ℕ) (rows : List (List MCell)), out.data[i]? = some (i, rows) →
        (p.decIncrements[i]? = some 1 → i = 0 → rows = td.data) ∧
        (p.decIncrements[i]? = some 1 → ∀ j, i = j + 1 → out.data[j]? = some (j, rows)) ∧
        (p.decIncrements[i]? ≠ some 1 → Fresh m rows ∧ rows.flatten.Nodup ∧ NoneShared td.data rows ∧
          ∀ j < i, ∀ rows', out.data[j]? = some (j, rows') → NoneShared rows' rows) := by
  have h1 : ∀ v, (if useResample then decimatorResample sp else decimatorDecimate sp maxSingle) v 1 = .ok v := by
    intro v
    cases useResample <;> simp [decimatorResample, decimatorDecimate]
  obtain ⟨s1, s2⟩ := decimateWith_spec _ h1 p td v m h
  refine ⟨s1, fun w hw => ?_⟩
  obtain ⟨out, m', a1, a2, a3, a4⟩ := s2 w hw
  obtain ⟨tds, -, k1, -, k2, -⟩ := C20_pyramid _ p v w hw
  unfold DecData.Holds at a2
  have e1 : out.md = w.md := congrArg DecData.md a2
  have e2 : out.data.map Prod.fst = w.data.map Prod.fst := by
    have := congrArg (fun d => d.data.map Prod.fst) a2
    simpa [DecData.over, List.map_map, Function.comp_def] using this
  have e3 : out.data.map Prod.fst = List.range out.md.nLevels := by rw [e2, e1, k2]
  refine ⟨out, m', a1, a2, a3, e3, by rw [e1]; exact k1, fun i rows hi => ?_⟩
  obtain ⟨b1, b2, b3⟩ := a4.get i i rows hi
  refine ⟨b1, fun h j hj => ?_, fun h => ⟨(b3 h).1, (b3 h).2.1, (b3 h).2.2.1 _ (by simp), fun j hj rows' hj' => (b3 h).2.2.2 j hj j rows' hj'⟩⟩
  obtain ⟨i', hi'⟩ := b2 h j hj
  have hj' : (out.data.map Prod.fst)[j]? = some i' := by rw [List.getElem?_map, hi']; rfl
  rw [e3, List.getElem?_range] at hj'
  · cases hj'
    exact hi'
  · have : j < out.data.length := (List.getElem?_eq_some_iff.1 hi').1
    have h4 := congrArg List.length e3
    simp only [List.length_map, List.length_range] at h4
    omega

/-! ## Windows -/

section Naturality

variable {V W : Type} (f : V → W)

theorem shape1_over (rows : List (List V)) : shape1 (mapRows f rows) = shape1 rows := by
  cases rows <;> simp [shape1, mapRows]

theorem slidingWindows_over (rows : List (List V)) (n : ℕ) :
    slidingWindows (mapRows f rows) n = (slidingWindows rows n).map (mapRows f) := by
  unfold slidingWindows
  rw [shape1_over, List.map_map]
  apply List.map_congr_left
  intro j _
  simp [mapRows, List.map_take, List.map_drop, Function.comp_def]

theorem flatten_over (w : List (List (List V))) : (w.map (mapRows f)).flatten = mapRows f w.flatten := by
  unfold mapRows
  rw [List.map_flatten]

theorem squeezeView_over (w : List (List (List V))) (nChans winSize : ℕ) :
    squeezeView (w.map (mapRows f)) nChans winSize = (squeezeView w nChans winSize).over f := by
  have e2 : (mapRows f w.flatten).flatten = w.flatten.flatten.map f := by
    unfold mapRows
    exact (List.map_flatten (L := w.flatten)).symm
  have e3 : (w.map (mapRows f)).map List.flatten = mapRows f (w.map List.flatten) := by
    unfold mapRows
    rw [List.map_map, List.map_map]
    apply List.map_congr_left
    intro a _
    simp only [Function.comp_apply]
    rw [List.map_flatten]
  unfold squeezeView
  rw [List.length_map, flatten_over, e2, e3, List.head?_map]
  split_ifs <;> rfl

theorem pySlice_over (l : List V) (a b : ℤ) : pySlice (l.map f) a b = (pySlice l a b).map f := by
  unfold pySlice
  rw [List.length_map, List.map_drop, List.map_take]

theorem pySliceStep_over (l : List V) (a b : ℤ) (step : ℕ) : pySliceStep (l.map f) a b step = (pySliceStep l a b step).map f := by
  unfold pySliceStep
  simp only [pySlice_over, List.length_map, List.map_filterMap, List.getElem?_map]

theorem slice_over (a b : ℤ) (step : ℕ) (arr : WinArr V) : (arr.over f).slice a b step = (arr.slice a b step).map (WinArr.over f) := by
  cases arr with
  | d3 w => simp only [WinArr.over, WinArr.slice, pySliceStep_over, Except.map]
  | d2 w => simp only [WinArr.over, WinArr.slice, mapRows, pySliceStep_over, Except.map]
  | d1 w => simp only [WinArr.over, WinArr.slice, pySliceStep_over, Except.map]
  | d0 x => rfl

theorem getLevelData_over (rows : List (List V)) (table : List WinRow) (nChans : ℕ) (w o : ℤ) :
    getLevelData (mapRows f rows) table nChans w o = (getLevelData rows table nChans w o).map (WinArr.over f) := by
  have hlen : (mapRows f rows).length = rows.length := List.length_map ..
  unfold getLevelData
  simp only [shape1_over, slidingWindows_over, squeezeView_over, slice_over, hlen]
  cases table.head? with
  | none => rfl
  | some a =>
    cases table.getLast? with
    | none => rfl
    | some b =>
      simp only
      split_ifs <;> rfl

theorem dictGet_over {β γ : Type} (g : β → γ) (l : List (ℕ × β)) (k : ℕ) :
    dictGet (l.map fun q => (q.1, g q.2)) k = (dictGet l k).map g := by
  unfold dictGet
  rw [lookup_image]
  cases l.lookup k <;> rfl

theorem getLevel_over (d : DecData V) (i : ℤ) : (d.over f).getLevel i = (d.getLevel i).map (mapRows f) := by
  unfold DecData.getLevel
  simp only [DecData.over, dictGet_over]
  split_ifs <;> rfl

theorem shape0_over (arr : WinArr V) : (arr.over f).shape0 = arr.shape0 := by
  cases arr <;> simp [WinArr.over, WinArr.shape0, mapRows]

/-- The state of the windowing loop with a function applied to every sample. -/
def WinAcc.over (acc : WinAcc V) : WinAcc W where
  data := acc.data.map fun q => (q.1, q.2.over f)
  levels := acc.levels

theorem windowLoop_over (checked : Bool) (sizes : ℕ → LevelMeta → Except Err (ℤ × ℤ)) (ref : DateTime) (minNWins : ℤ) (dec : DecData V)
    (ls : List ℕ) (acc : WinAcc V) :
    windowLoop checked sizes ref minNWins (dec.over f) ls (acc.over f) =
      (windowLoop checked sizes ref minNWins dec ls acc).map (WinAcc.over f) := by
  induction ls generalizing acc with
  | nil => rfl
  | cons i rest ih =>
    simp only [windowLoop]
    have hmd : (dec.over f).md = dec.md := rfl
    rw [hmd]
    cases pyIndex dec.md.levels (i : ℤ) with
    | error e => rfl
    | ok lm =>
      simp only [bind, Except.bind]
      cases sizes i lm with
      | error e => rfl
      | ok wo =>
        simp only
        cases getWinTable ref lm wo.1 wo.2 with
        | error e => rfl
        | ok table =>
          simp only
          by_cases hlt : (table.length : ℤ) < minNWins
          · rw [if_pos hlt, if_pos hlt]; rfl
          · rw [if_neg hlt, if_neg hlt, getLevel_over]
            cases dec.getLevel i with
            | error e => rfl
            | ok raw =>
              simp only [Except.map]
              rw [getLevelData_over]
              cases getLevelData raw table dec.md.chans.length wo.1 wo.2 with
              | error e => rfl
              | ok arr =>
                simp only [Except.map, checkShape, shape0_over]
                split_ifs
                · rfl
                · simp only
                  cases getLevelMetadata lm table wo.1 wo.2 with
                  | error e => rfl
                  | ok wlm =>
                    simp only
                    refine Eq.trans ?_ (ih _)
                    congr 1
                    simp [WinAcc.over]

theorem windowedResult_over (name : String) (dec : DecData V) (ref : DateTime) (acc : WinAcc V) :
    windowedResult name (dec.over f) ref (acc.over f) = (windowedResult name dec ref acc).map (WinData.over f) := by
  unfold windowedResult
  simp only [WinAcc.over, dictGet_over]
  cases dictGet acc.data 0 <;> rfl

theorem windower_over (ref : DateTime) (p : WinParams) (dec : DecData V) :
    windowerRun ref p (dec.over f) = (windowerRun ref p dec).map (WinData.over f) := by
  unfold windowerRun
  have := windowLoop_over f true (windowerSizes p) ref p.minNWins dec (List.range dec.md.nLevels) {}
  rw [show (WinAcc.over f {} : WinAcc W) = {} from rfl] at this
  simp only [show (dec.over f).md = dec.md from rfl, this, bind, Except.bind]
  cases windowLoop true (windowerSizes p) ref p.minNWins dec (List.range dec.md.nLevels) {} with
  | error e => rfl
  | ok acc => exact windowedResult_over f "Windower" dec ref acc

theorem windowerTarget_over (t : WindowerTarget) (ref : DateTime) (p : WinParams) (dec : DecData V) :
    t.run ref p (dec.over f) = (t.run ref p dec).map (WinData.over f) := by
  unfold WindowerTarget.run
  have := windowLoop_over f false t.sizes ref p.minNWins dec (List.range dec.md.nLevels) {}
  rw [show (WinAcc.over f {} : WinAcc W) = {} from rfl] at this
  simp only [show (dec.over f).md = dec.md from rfl, this, bind, Except.bind]
  cases windowLoop false t.sizes ref p.minNWins dec (List.range dec.md.nLevels) {} with
  | error e => rfl
  | ok acc => exact windowedResult_over f "WindowerTarget" dec dec.md.firstTime acc

end Naturality

theorem winData_over_some_inj {a b : WinData ℚ} (h : a.over some = b.over some) : a = b := by
  have inj1 : Function.Injective (List.map (some : ℚ → Option ℚ)) := List.map_injective_iff.2 (Option.some_injective _)
  have inj2 : Function.Injective (mapRows (some : ℚ → Option ℚ)) := List.map_injective_iff.2 inj1
  have inj3 : Function.Injective (List.map (mapRows (some : ℚ → Option ℚ))) := List.map_injective_iff.2 inj2
  have injA : Function.Injective (WinArr.over (some : ℚ → Option ℚ)) := by
    intro x y hxy
    cases x <;> cases y <;> simp only [WinArr.over, WinArr.d3.injEq, WinArr.d2.injEq, WinArr.d1.injEq, WinArr.d0.injEq, reduceCtorEq] at hxy ⊢
    · exact inj3 hxy
    · exact inj2 hxy
    · exact inj1 hxy
    · exact Option.map_injective (Option.some_injective _) hxy
  unfold WinData.over at h
  rw [WinData.mk.injEq] at h
  obtain ⟨m1, d1⟩ := a
  obtain ⟨m2, d2⟩ := b
  simp only at h
  obtain ⟨rfl, h⟩ := h
  congr 1
  refine List.map_injective_iff.2 ?_ h
  rintro ⟨i, x⟩ ⟨j, y⟩ hxy
  simp only [Prod.mk.injEq] at hxy
  rw [hxy.1, injA hxy.2]

theorem views_of {dec : DecData MCell} {m : Mem} {v : DecData ℚ} (h : dec.Holds m v)
    (run : {V : Type} → DecData V → Except Err (WinData V))
    (hrun : ∀ {V W : Type} (f : V → W) (d : DecData V), run (d.over f) = (run d).map (WinData.over f)) :
    (∀ e, run dec = .error e ↔ run v = .error e) ∧
    ∀ win, run dec = .ok win → ∃ w, run v = .ok w ∧ win.Holds m w := by
  have key : (run dec).map (WinData.over m.get) = (run v).map (WinData.over some) := by
    rw [← hrun m.get dec, ← hrun some v]
    unfold DecData.Holds at h
    rw [h]
  cases h1 : run dec with
  | error e =>
    cases h2 : run v with
    | error e' =>
      rw [h1, h2] at key
      simp only [Except.map, Except.error.injEq] at key
      subst key
      exact ⟨fun e => (by simp), fun win hw => (by cases hw)⟩
    | ok w => rw [h1, h2] at key; simp [Except.map] at key
  | ok win =>
    cases h2 : run v with
    | error e' => rw [h1, h2] at key; simp [Except.map] at key
    | ok w =>
      rw [h1, h2] at key
      simp only [Except.map, Except.ok.injEq] at key
      refine ⟨fun e => (by simp), fun win' hw => ?_⟩
      cases hw
      exact ⟨w, rfl, key⟩

/-- **C77 (windows are views)**: the windows of decimated data are, at any later time, the windows of what the decimated data hold then;
windowing itself allocates and changes nothing and depends only on the shapes, so it fails exactly when it fails on the values. -/
theorem C77_windows_are_views (ref : DateTime) (p : WinParams) (dec : DecData MCell) (m : Mem) (v : DecData ℚ) (h : dec.Holds m v) :
    (∀ e, windowerRun ref p dec = .error e ↔ windowerRun ref p v = .error e) ∧
    ∀ win, windowerRun ref p dec = .ok win → ∃ w, windowerRun ref p v = .ok w ∧ win.Holds m w :=
  views_of h (fun d => windowerRun ref p d) fun f d => windower_over f ref p d

/-- **C77 (windows are views, target windower)**. -/
theorem C77_target_windows_are_views (t : WindowerTarget) (ref : DateTime) (p : WinParams) (dec : DecData MCell) (m : Mem) (v : DecData ℚ)
    (h : dec.Holds m v) :
    (∀ e, t.run ref p dec = .error e ↔ t.run ref p v = .error e) ∧
    ∀ win, t.run ref p dec = .ok win → ∃ w, t.run ref p v = .ok w ∧ win.Holds m w :=
  views_of h (fun d => t.run ref p d) fun f d => windowerTarget_over f t ref p d

/-- **C77 (which cells a window has)**: sample `s` of channel `c` of a window is the cell of sample `from_sample + s` of that channel of the
level, so that overlapping windows share the samples they have in common. -/
theorem C77_window_cells (ref : DateTime) (p : WinParams) (dec : DecData MCell) (hc : dec.Consistent) (hch : 2 ≤ dec.md.chans.length)
    (hmin : 2 ≤ p.minNWins) (out : WinData MCell) (h : windowerRun ref p dec = .ok out) (i : ℕ) (hi : i < out.md.nLevels) :
    ∃ lm w o table raw, ∃ wins : List (List (List MCell)), dec.md.levels[i]? = some lm ∧ p.winSizes[i]? = some w ∧ p.olapSizes[i]? = some o ∧
      getWinTable ref lm w o = .ok table ∧ dec.getLevel i = .ok raw ∧ out.getLevel i = .ok (.d3 wins) ∧ wins.length = table.length ∧
      ∀ (k : ℕ) (r : WinRow), table[k]? = some r → ∃ win : List (List MCell), wins[k]? = some win ∧ win.length = raw.length ∧
        ∀ (c s : ℕ) (row cells : List MCell), raw[c]? = some row → win[c]? = some cells → (s : ℤ) < w →
          cells[s]? = row[r.fromSample.toNat + s]? := by
  obtain ⟨lm, w, o, table, raw, wins, h1, h2, h3, h4, h5, h6, h7, h8⟩ := C12_window_contents ref p dec hc hch hmin out h i hi
  refine ⟨lm, w, o, table, raw, wins, h1, h2, h3, h4, h5, h6, h7, fun k r hr => ⟨_, h8 k r hr, by simp [windowAt], ?_⟩⟩
  intro c s row cells hrow hcells hs
  unfold windowAt at hcells
  rw [List.getElem?_map, hrow] at hcells
  cases hcells
  rw [List.getElem?_take, if_pos (by omega), List.getElem?_drop]

/-! ## Writing -/

theorem poke_get (m : Mem) (n : ℕ) (x : ℚ) (c : MCell) :
    ∃ m', m.poke (.ram n) x = .ok m' ∧ (c ≠ .ram n → m'.get c = m.get c) ∧ (m.get (.ram n) ≠ none → m'.get (.ram n) = some x) ∧
      m'.disk = m.disk := by
  refine ⟨_, rfl, ?_, ?_, rfl⟩
  · intro hc
    cases c with
    | file p k => rfl
    | ram k =>
      show (m.ram.set n x)[k]? = m.ram[k]?
      rw [List.getElem?_set_ne]
      rintro rfl
      exact hc rfl
  · intro hn
    show (m.ram.set n x)[n]? = some x
    have : n < m.ram.length := by
      by_contra hge
      exact hn (List.getElem?_eq_none (by omega))
    rw [List.getElem?_set_self this]

/-- Assigning to a row. -/
theorem store_spec (m : Mem) (cells : List MCell) (row : List ℚ) (hlen : cells.length = row.length) (hram : ∀ c ∈ cells, ∃ n, c = .ram n)
    (hnd : cells.Nodup) (hex : ∀ c ∈ cells, m.get c ≠ none) :
    ∃ m', m.store cells row = .ok m' ∧ cells.map m'.get = row.map some ∧ (∀ c, c ∉ cells → m'.get c = m.get c) ∧ m'.disk = m.disk := by
  induction cells generalizing m row with
  | nil =>
    cases row with
    | nil => exact ⟨m, rfl, rfl, fun _ _ => rfl, rfl⟩
    | cons x row => simp at hlen
  | cons c cells ih =>
    cases row with
    | nil => simp at hlen
    | cons x row =>
      obtain ⟨n, rfl⟩ := hram c (by simp)
      obtain ⟨m1, hm1, -, -, hd1⟩ := poke_get m n x (.ram n)
      have g1 : ∀ c, c ≠ .ram n → m1.get c = m.get c := by
        intro c hc
        obtain ⟨m2, hm2, h2, -⟩ := poke_get m n x c
        rw [hm1] at hm2
        cases hm2
        exact h2 hc
      have g2 : m1.get (.ram n) = some x := by
        obtain ⟨m2, hm2, -, h2, -⟩ := poke_get m n x (.ram n)
        rw [hm1] at hm2
        cases hm2
        exact h2 (hex _ (by simp))
      rw [List.nodup_cons] at hnd
      obtain ⟨m', a1, a2, a3, a4⟩ := ih m1 row (by simpa using hlen) (fun c hc => hram c (by simp [hc])) hnd.2 (by
        intro c hc
        rw [g1 c (by rintro rfl; exact hnd.1 hc)]
        exact hex c (by simp [hc]))
      refine ⟨m', ?_, ?_, ?_, by rw [a4, hd1]⟩
      · simp only [Mem.store, hm1, bind, Except.bind]
        exact a1
      · rw [List.map_cons, List.map_cons, a2, a3 _ hnd.1, g2]
      · intro c hc
        rw [List.mem_cons, not_or] at hc
        rw [a3 c hc.2, g1 c hc.1]

/-- Specification: an array of one's own: every element is a cell of its own in the memory of the process. -/
def Own (rows : List (List MCell)) : Prop := rows.flatten.Nodup ∧ ∀ r ∈ rows, ∀ c ∈ r, ∃ n, c = .ram n

theorem mapRows_set {V W : Type} (f : V → W) (rows : List (List V)) (i : ℕ) (row : List V) :
    mapRows f (rows.set i row) = (mapRows f rows).set i (row.map f) := by
  unfold mapRows
  rw [List.map_set]

theorem flatten_row_nodup {rows : List (List MCell)} (h : rows.flatten.Nodup) (r : List MCell) (hr : r ∈ rows) : r.Nodup :=
  (List.nodup_flatten.1 h).1 r hr

theorem other_row {rows : List (List MCell)} (h : rows.flatten.Nodup) {i j : ℕ} {r r' : List MCell} (hi : rows[i]? = some r)
    (hj : rows[j]? = some r') (hne : i ≠ j) (c : MCell) (hc : c ∈ r') : c ∉ r := by
  have hp := List.pairwise_iff_getElem.1 (List.nodup_flatten.1 h).2
  obtain ⟨hi1, rfl⟩ := List.getElem?_eq_some_iff.1 hi
  obtain ⟨hj1, rfl⟩ := List.getElem?_eq_some_iff.1 hj
  intro hc'
  rcases Nat.lt_or_gt_of_ne hne with hlt | hlt
  · exact hp i j hi1 hj1 hlt hc' hc
  · exact hp j i hj1 hi1 hlt hc hc'

/-- **C77 (setting a channel)**: `set_chan` on an object with an array of its own fails exactly when it fails on the values, and otherwise
the object holds the values with the channel replaced, and no cell outside the channel changes. -/
theorem C77_set_chan (m : Mem) (td : TimeData MCell) (v : TimeData ℚ) (chan : String) (row : List ℚ) (h : td.Holds m v) (hown : Own td.data)
    (hlen : ∀ r ∈ td.data, (r.length : ℤ) = td.md.nSamples) :
    (∀ e, v.setChan chan row = .error e → m.setChan td chan row = .error e) ∧
    ∀ w, v.setChan chan row = .ok w → ∃ m' cells, m.setChan td chan row = .ok m' ∧ td.getChan chan = .ok cells ∧ td.Holds m' w ∧
      (∀ c, c ∉ cells → m'.get c = m.get c) ∧ m'.disk = m.disk := by
  obtain ⟨e1, e2⟩ := holds_rows h
  have hn : td.data.length = v.data.length := by
    have := congrArg List.length e2
    simpa [mapRows] using this
  unfold TimeData.setChan Mem.setChan TimeData.getChan
  rw [e1]
  cases checkChan chan v.md.chans with
  | error e => exact ⟨fun e' he => (by cases he; rfl), fun w hw => (by cases hw)⟩
  | ok b =>
    simp only [bind, Except.bind]
    by_cases hs : (row.length : ℤ) ≠ v.md.nSamples
    · rw [if_pos hs, if_pos hs]
      exact ⟨fun e' he => (by cases he; rfl), fun w hw => (by cases hw)⟩
    · rw [if_neg hs, if_neg hs]
      simp only [pure, Except.pure]
      cases hci : chanIndex v.md.chans chan with
      | none => exact ⟨fun e' he => (by cases he; rfl), fun w hw => (by cases hw)⟩
      | some i =>
        simp only
        by_cases hi : i < v.data.length
        · rw [if_pos hi, pyIndex_natCast _ _ (by omega : i < td.data.length)]
          refine ⟨fun e' he => (by cases he), fun w hw => ?_⟩
          cases hw
          have hmem : td.data[i] ∈ td.data := List.getElem_mem _
          have hl := hlen _ hmem
          obtain ⟨m', a1, a2, a3, a4⟩ := store_spec m td.data[i] row (by rw [e1] at hl; omega) (hown.2 _ hmem)
            (flatten_row_nodup hown.1 _ hmem) (readable e2 _ hmem)
          refine ⟨m', td.data[i], a1, rfl, ?_, a3, a4⟩
          unfold TimeData.Holds TimeData.over
          rw [TimeData.mk.injEq]
          refine ⟨e1, ?_⟩
          rw [mapRows_set, ← e2]
          apply List.ext_getElem?
          intro j
          by_cases hj : j < td.data.length
          · by_cases hij : i = j
            · subst hij
              rw [List.getElem?_set_self (by simpa [mapRows] using hj)]
              unfold mapRows
              rw [List.getElem?_map, List.getElem?_eq_getElem hj, Option.map_some, a2]
            · rw [List.getElem?_set_ne hij]
              unfold mapRows
              rw [List.getElem?_map, List.getElem?_map, List.getElem?_eq_getElem hj, Option.map_some, Option.map_some]
              congr 1
              apply List.map_congr_left
              intro c hc
              exact a3 c (other_row hown.1 (List.getElem?_eq_getElem _) (List.getElem?_eq_getElem _) hij c hc)
          · rw [List.getElem?_eq_none (by simpa [mapRows] using hj), List.getElem?_eq_none (by simpa [mapRows] using hj)]
        · rw [if_neg hi, pyIndex_natCast_ge _ _ (by omega : td.data.length ≤ i)]
          exact ⟨fun e' he => (by cases he; rfl), fun w hw => (by cases hw)⟩

/-- **C77 (recordings of the numpy reader are read-only)**: setting a channel of data whose samples are in a mapped file is a `ValueError`
and changes nothing. -/
theorem C77_read_only (m : Mem) (td : TimeData MCell) (chan : String) (row : List ℚ) (p : Path) (n : ℕ) (cells : List MCell)
    (hcells : td.getChan chan = .ok (.file p n :: cells)) (hrow : row ≠ []) : m.setChan td chan row = .error .value := by
  unfold Mem.setChan
  have hk : ∃ b, checkChan chan td.md.chans = .ok b := by
    cases hh : checkChan chan td.md.chans with
    | ok b => exact ⟨b, rfl⟩
    | error e => unfold TimeData.getChan at hcells; rw [hh] at hcells; cases hcells
  obtain ⟨b, hb⟩ := hk
  rw [hb]
  simp only [bind, Except.bind]
  split_ifs
  · rfl
  · simp only [pure, Except.pure, hcells]
    cases row with
    | nil => exact absurd rfl hrow
    | cons x row => rfl

theorem mapRows_congr {V W : Type} {f g : V → W} {rows : List (List V)} (h : ∀ r ∈ rows, ∀ c ∈ r, f c = g c) :
    mapRows f rows = mapRows g rows :=
  List.map_congr_left fun r hr => List.map_congr_left fun c hc => h r hr c hc

/-- **C77 (writing into one element)**: assigning to one element of an array of one's own – also through a window, whose elements are elements
of the level – changes that element of the array and no other cell. -/
theorem C77_write_one (m : Mem) (rows : List (List MCell)) (v : List (List ℚ)) (h : mapRows m.get rows = mapRows some v) (hown : Own rows)
    (i j : ℕ) (r : List MCell) (c : MCell) (hr : rows[i]? = some r) (hc : r[j]? = some c) (x : ℚ) :
    ∃ m', m.poke c x = .ok m' ∧ (∀ c', c' ≠ c → m'.get c' = m.get c') ∧
      ∀ vr, v[i]? = some vr → mapRows m'.get rows = mapRows some (v.set i (vr.set j x)) := by
  have hrm := List.mem_of_getElem? hr
  have hcm := List.mem_of_getElem? hc
  obtain ⟨n, rfl⟩ := hown.2 r hrm c hcm
  obtain ⟨m', hm, -, g2, -⟩ := poke_get m n x (.ram n)
  have g1 : ∀ c', c' ≠ .ram n → m'.get c' = m.get c' := by
    intro c' hc'
    obtain ⟨m2, hm2, h2, -⟩ := poke_get m n x c'
    rw [hm] at hm2
    cases hm2
    exact h2 hc'
  have g2 := g2 (readable h r hrm _ hcm)
  refine ⟨m', hm, g1, fun vr hvr => ?_⟩
  have hrow : r.map m.get = vr.map some := by
    have := congrArg (fun l : List (List (Option ℚ)) => l[i]?) h
    simpa [mapRows, hr, hvr] using this
  have hnd := flatten_row_nodup hown.1 r hrm
  have hrow' : r.map m'.get = (vr.set j x).map some := by
    rw [List.map_set, ← hrow]
    apply List.ext_getElem?
    intro k
    by_cases hjk : j = k
    · subst hjk
      rw [List.getElem?_map, hc, List.getElem?_set_self (by rw [List.length_map]; exact (List.getElem?_eq_some_iff.1 hc).1)]
      exact congrArg some g2
    · rw [List.getElem?_set_ne hjk, List.getElem?_map, List.getElem?_map]
      cases hk : r[k]? with
      | none => rfl
      | some c' =>
        refine congrArg some (g1 c' ?_)
        rintro rfl
        obtain ⟨hj1, hj2⟩ := List.getElem?_eq_some_iff.1 hc
        obtain ⟨hk1, hk2⟩ := List.getElem?_eq_some_iff.1 hk
        exact hjk ((List.Nodup.getElem_inj_iff hnd).1 (hj2.trans hk2.symm))
  rw [mapRows_set, ← h]
  apply List.ext_getElem?
  intro k
  by_cases hik : i = k
  · subst hik
    have hi : i < rows.length := (List.getElem?_eq_some_iff.1 hr).1
    rw [List.getElem?_set_self (by simpa [mapRows] using hi), ← hrow']
    unfold mapRows
    rw [List.getElem?_map, hr]
    rfl
  · rw [List.getElem?_set_ne hik]
    unfold mapRows
    rw [List.getElem?_map, List.getElem?_map]
    cases hk : rows[k]? with
    | none => rfl
    | some r' =>
      refine congrArg some (List.map_congr_left fun c' hc' => g1 c' ?_)
      rintro rfl
      exact other_row hown.1 hr hk hik _ hc' hcm

/-- **C77 (a channel set after decimating)**: of the decimated data, exactly the levels up to the first increment other than one follow a
channel set on the recording afterwards; all later levels stay as they were. -/
theorem C77_set_after_decimating (sp : SciPy) (useResample : Bool) (maxSingle : ℕ) (p : DecParams ℚ) (td : TimeData MCell) (v : TimeData ℚ)
    (m : Mem) (h : td.Holds m v) (hown : Own td.data) (hlen : ∀ r ∈ td.data, (r.length : ℤ) = td.md.nSamples) (w : DecData ℚ)
    (hw : Decimator.run sp useResample maxSingle p v = .ok w) (chan : String) (row : List ℚ) (v' : TimeData ℚ)
    (hv' : v.setChan chan row = .ok v') :
    ∃ out m1 m2, Mem.decimate sp useResample maxSingle p td m = .ok (out, m1) ∧ m1.setChan td chan row = .ok m2 ∧ td.Holds m2 v' ∧
      out.Holds m1 w ∧
      ∀ (i : ℕ) (rows : List (List MCell)) (old : List (List ℚ)), out.data[i]? = some (i, rows) → w.data[i]? = some (i, old) →
        ((∀ j ≤ i, p.decIncrements[j]? = some 1) → mapRows m2.get rows = mapRows some v'.data) ∧
        ((∃ j ≤ i, p.decIncrements[j]? ≠ some 1) → mapRows m2.get rows = mapRows some old) := by
  obtain ⟨out, m1, a1, a2, a3, a4, -, a5⟩ := (C77_decimated sp useResample maxSingle p td v m h).2 w hw
  obtain ⟨m2, cells, b1, b2, b3, b4, -⟩ := (C77_set_chan m1 td v chan row (h.keeps a3) hown hlen).2 v' hv'
  have hin : cells ∈ td.data := by
    unfold TimeData.getChan at b2
    simp only [bind, Except.bind] at b2
    split at b2
    · cases b2
    · split at b2
      · cases b2
      · exact List.mem_of_getElem? (pyIndex_ok b2)
  refine ⟨out, m1, m2, a1, b1, b3, a2, ?_⟩
  have hkey : ∀ (i : ℕ) (rows : List (List MCell)), out.data[i]? = some (i, rows) →
      ((∀ j ≤ i, p.decIncrements[j]? = some 1) → rows = td.data) ∧
      ((∃ j ≤ i, p.decIncrements[j]? ≠ some 1) → NoneShared td.data rows) := by
    intro i
    induction i with
    | zero =>
      intro rows hr
      obtain ⟨s1, -, s3⟩ := a5 0 rows hr
      refine ⟨fun hh => s1 (hh 0 le_rfl) rfl, ?_⟩
      rintro ⟨j, hj, hj'⟩
      obtain rfl : j = 0 := by omega
      exact (s3 hj').2.2.1
    | succ i ih =>
      intro rows hr
      obtain ⟨-, s2, s3⟩ := a5 (i + 1) rows hr
      by_cases hi : p.decIncrements[i + 1]? = some 1
      · obtain ⟨t1, t2⟩ := ih rows (s2 hi i rfl)
        refine ⟨fun hh => t1 fun j hj => hh j (by omega), ?_⟩
        rintro ⟨j, hj, hj'⟩
        refine t2 ⟨j, ?_, hj'⟩
        by_contra hgt
        obtain rfl : j = i + 1 := by omega
        exact hj' hi
      · exact ⟨fun hh => absurd (hh (i + 1) le_rfl) hi, fun _ => (s3 hi).2.2.1⟩
  intro i rows old hr hold
  obtain ⟨k1, k2⟩ := hkey i rows hr
  refine ⟨fun hh => ?_, fun hh => ?_⟩
  · rw [k1 hh]
    exact (holds_rows b3).2
  · have hap := k2 hh
    rw [mapRows_congr fun r hr c hc => b4 c fun hc' => hap cells hin c hc' r hr hc]
    unfold DecData.Holds DecData.over at a2
    rw [DecData.mk.injEq] at a2
    have := congrArg (fun l : List (ℕ × List (List (Option ℚ))) => l[i]?) a2.2
    simpa [List.getElem?_map, hr, hold] using this

/-! ## Files -/

theorem numberRows_over {β : Type} (mk : ℕ → MCell) (get : MCell → Option ℚ) (shape : List (List β)) (rows : List (List ℚ))
    (hs : shape.map List.length = rows.map List.length) (n : ℕ)
    (h : ∀ k, k < rows.flatten.length → get (mk (n + k)) = rows.flatten[k]?) :
    mapRows get (numberRows mk n shape) = mapRows some rows := by
  have hsame : ∀ (shape : List (List β)) (rows : List (List ℚ)) (n : ℕ), shape.map List.length = rows.map List.length →
      numberRows mk n shape = numberRows mk n rows := by
    intro shape
    induction shape with
    | nil =>
      intro rows n hs
      cases rows with
      | nil => rfl
      | cons r rows => simp at hs
    | cons a shape ih =>
      intro rows n hs
      cases rows with
      | nil => simp at hs
      | cons r rows =>
        rw [List.map_cons, List.map_cons, List.cons.injEq] at hs
        simp only [numberRows, hs.1, ih rows _ hs.2]
  rw [hsame shape rows n hs]
  exact numberRows_values mk get n rows h

theorem readNumpy_over {V W : Type} (f : V → W) (rows : List (List V)) (md : TimeMeta) (r : ReadReq) :
    Resistics.readNumpy (mapRows f rows) md r = (Resistics.readNumpy rows md r).map (TimeData.over f) := by
  unfold Resistics.readNumpy readDataNumpy
  cases getReadSamples md r with
  | error e => rfl
  | ok q => 
    obtain ⟨a, b⟩ := q
    simp only [bind, Except.bind]
    cases getReturnMetadata md a b with
    | error e => rfl
    | ok md' =>
      simp only [pure, Except.pure, Except.map, TimeData.over, mapRows, List.map_map, Function.comp_def, pySlice_over]

theorem numberRows_cells {β : Type} (mk : ℕ → MCell) (n : ℕ) (rows : List (List β)) :
    ∀ r ∈ numberRows mk n rows, ∀ c ∈ r, ∃ k, c = mk k := by
  intro r hr c hc
  have : c ∈ (numberRows mk n rows).flatten := List.mem_flatten.2 ⟨r, hr, hc⟩
  rw [numberRows_flatten] at this
  obtain ⟨k, -, rfl⟩ := List.mem_map.1 this
  exact ⟨k, rfl⟩

theorem mem_pySlice {α : Type} {l : List α} {a b : ℤ} {x : α} (h : x ∈ pySlice l a b) : x ∈ l :=
  List.mem_of_mem_take (List.mem_of_mem_drop h)

/-- **C77 (recordings of the numpy reader are views of the file)**: reading allocates nothing, every sample is a cell of the file, and as
long as the file holds an array of the same shape – not necessarily the one read – the recording is what reading that array returns. -/
theorem C77_mapped (m : Mem) (p : Path) (md : TimeMeta) (r : ReadReq) (rows : List (List ℚ)) (hp : m.disk p = some rows) :
    (∀ e, m.readNumpy p md r = .error e ↔ Resistics.readNumpy rows md r = .error e) ∧
    ∀ td, m.readNumpy p md r = .ok td → (∀ row ∈ td.data, ∀ c ∈ row, ∃ n, c = .file p n) ∧
      ∀ m' rows', m'.disk p = some rows' → rows'.map List.length = rows.map List.length →
        ∃ v, Resistics.readNumpy rows' md r = .ok v ∧ td.Holds m' v := by
  have hrun : m.readNumpy p md r = Resistics.readNumpy (numberRows (MCell.file p) 0 rows) md r := by
    unfold Mem.readNumpy Mem.map
    rw [hp]
    rfl
  have hkey : ∀ (m' : Mem) (rows' : List (List ℚ)), m'.disk p = some rows' → rows'.map List.length = rows.map List.length →
      (m.readNumpy p md r).map (TimeData.over m'.get) = (Resistics.readNumpy rows' md r).map (TimeData.over some) := by
    intro m' rows' hp' hs
    rw [hrun, ← readNumpy_over, ← readNumpy_over, numberRows_over (MCell.file p) m'.get rows rows' hs.symm 0]
    intro k _
    show (m'.disk p).bind _ = _
    rw [hp', Nat.zero_add]
    rfl
  constructor
  · intro e
    have := hkey m rows hp rfl
    cases h1 : m.readNumpy p md r <;> cases h2 : Resistics.readNumpy rows md r <;> rw [h1, h2] at this <;>
      simp only [Except.map, Except.error.injEq, reduceCtorEq] at this
    · subst this
      simp
    · simp
  · intro td htd
    refine ⟨?_, ?_⟩
    · rw [hrun] at htd
      unfold Resistics.readNumpy readDataNumpy at htd
      simp only [except_bind_ok, except_pure_ok] at htd
      obtain ⟨q, -, md', -, rfl⟩ := htd
      intro row hrow c hc
      obtain ⟨r0, hr0, rfl⟩ := List.mem_map.1 hrow
      exact numberRows_cells _ _ _ r0 hr0 c (mem_pySlice hc)
    · intro m' rows' hp' hs
      have := hkey m' rows' hp' hs
      rw [htd] at this
      cases h2 : Resistics.readNumpy rows' md r with
      | error e => rw [h2] at this; simp [Except.map] at this
      | ok v =>
        rw [h2] at this
        simp only [Except.map, Except.ok.injEq] at this
        exact ⟨v, rfl, this⟩

/-- **C77 (saving)**: saving data that has no sample in the file written puts its values there and changes no other file and no memory. -/
theorem C77_save (m : Mem) (p : Path) (td : TimeData MCell) (v : TimeData ℚ) (h : td.Holds m v)
    (hp : ∀ row ∈ td.data, ∀ c ∈ row, ∀ n, c ≠ .file p n) :
    ∃ m', m.saveNumpy p td = (.ok (), m') ∧ m'.disk p = some v.data ∧ (∀ q, q ≠ p → m'.disk q = m.disk q) ∧ m'.ram = m.ram ∧
      td.Holds m' v := by
  obtain ⟨e1, e2⟩ := holds_rows h
  have hcut : ({ m with disk := fun q => if q = p then none else m.disk q } : Mem).load td.data = .ok v.data := by
    rw [load_iff, ← e2]
    refine mapRows_congr fun r hr c hc => ?_
    cases c with
    | ram n => rfl
    | file q n =>
      have hq : q ≠ p := by rintro rfl; exact hp r hr _ hc n rfl
      simp only [Mem.get, if_neg hq]
  unfold Mem.saveNumpy
  simp only [hcut]
  refine ⟨_, rfl, if_pos rfl, fun q hq => if_neg hq, rfl, ?_⟩
  unfold TimeData.Holds TimeData.over
  rw [TimeData.mk.injEq]
  refine ⟨e1, ?_⟩
  rw [← e2]
  refine mapRows_congr fun r hr c hc => ?_
  cases c with
  | ram n => rfl
  | file q n =>
    have hq : q ≠ p := by rintro rfl; exact hp r hr _ hc n rfl
    simp only [Mem.get, if_neg hq]

/-- **C77 (saving over itself)**: saving data to the file its samples are in fails and loses the file. -/
theorem C77_save_over_itself (m : Mem) (p : Path) (td : TimeData MCell) (row : List MCell) (hrow : row ∈ td.data) (n : ℕ)
    (hc : MCell.file p n ∈ row) :
    ∃ e m', m.saveNumpy p td = (.error e, m') ∧ m'.disk p = none ∧ ∀ q, q ≠ p → m'.disk q = m.disk q := by
  unfold Mem.saveNumpy
  simp only
  split
  · rename_i rows hl
    rw [load_iff] at hl
    exfalso
    refine readable hl row hrow _ hc ?_
    simp [Mem.get]
  · exact ⟨_, _, rfl, if_pos rfl, fun q hq => if_neg hq⟩

end Resistics
