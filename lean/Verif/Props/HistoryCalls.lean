import Verif.Props.History

/-!
# C38: histories are append-only; who changes its input

The specification is `callValue`: what a call should return, as a function of the contents of the object it is made on.
-/

namespace Resistics

variable {W : Type}

/-- The contents that a call should return, from the contents of its input alone; `none` when the call returns no data
or is not made on data of its kind. -/
def callValue (sp : SciPy) : Call W → Value W → Option (Except Err (Value W))
  | .proc p, .time d => some ((p.run sp d).map .time)
  | .copy, .time d => some (.ok (.time d))
  | .decimate u k p, .time d => some ((Decimator.run sp u k p d).map .dec)
  | .window ref p, .dec d => some ((windowerRun ref p d).map .win)
  | .windowTarget t ref p, .dec d => some ((t.run ref p d).map .win)
  | .fourier nfl ft, .win d => some ((fourierRun nfl ft d).map .spec)
  | .spec _ f, .spec d => some ((f d).map .spec)
  | _, _ => none

/-- The record that a call adds to the history of what it returns. -/
def Call.record : Call W → List String
  | .proc p => [p.name]
  | .decimate _ _ _ => ["Decimator"]
  | .window _ _ => ["Windower"]
  | .windowTarget _ _ _ => ["WindowerTarget"]
  | .fourier _ _ => ["FourierTransform"]
  | .spec name _ => [name]
  | _ => []

/-- A function on spectra data that adds one record named after its process. -/
def Call.Lawful : Call W → Prop
  | .spec name f => ∀ d out, f d = .ok out → out.md.history = d.md.history ++ [name]
  | _ => True

/-- The four processes that share the history of their input with their result, named one by one. -/
def Proc.Sharing : Proc → Bool
  | .subsection _ _ | .resample _ | .decimate _ _ | .shift _ => true
  | .interpolateNans | .removeMean | .add _ | .multiply _ | .lowPass _ _ | .highPass _ _ | .bandPass _ _ _
  | .notch _ _ _ | .apply _ _ => false

/-- In the model the shallow copies are taken by exactly these. -/
theorem Proc.shallow_eq (p : Proc) : p.shallow = p.Sharing := by cases p <;> rfl

/-- The calls that take no shallow copy of the metadata of their input and write nothing in place.  A decimation is
among them only if it takes every level over unchanged. -/
def Call.Clean : Call W → Prop
  | .proc p => p.Sharing = false
  | .copy => True
  | .decimate _ _ p => ∀ i < p.nLevels, pyIndex p.decIncrements (i : ℤ) = .ok 1
  | .window _ _ => True
  | .windowTarget _ _ _ => True
  | .fourier _ _ => True
  | .spec _ _ => True
  | _ => False

/-- The calls whose result shares the history of the input: `Subsection`, `Resample`, `Decimate` and
`ShiftTimestamps`. -/
def Call.shares : Call W → Bool
  | .proc p => p.Sharing
  | _ => false

/-- The calls that assign samples in place. -/
def Call.assigns : Call W → Prop
  | .setChan _ _ => True
  | _ => False

theorem windowerRun_facts {ref : DateTime} {p : WinParams} {dec : DecData ℚ} {out : WinData ℚ}
    (h : windowerRun ref p dec = .ok out) : out.md.history = dec.md.history ++ ["Windower"] ∧
      ∀ q ∈ out.data, ∃ raw, dec.getLevel (q.1 : ℤ) = .ok raw ∧ levelView (windowerSizes p) ref dec.md q.1 raw = .ok q.2 := by
  unfold windowerRun at h
  obtain ⟨acc, hacc, h⟩ := except_bind_ok.1 h
  obtain ⟨h1, h2⟩ := windowedResult_history h
  refine ⟨h1, fun q hq => ?_⟩
  rw [h2] at hq
  rcases windowLoop_views _ _ _ _ _ _ _ _ hacc q hq with hx | hx
  · cases hx
  · exact hx

theorem windowerTarget_facts {t : WindowerTarget} {ref : DateTime} {p : WinParams} {dec : DecData ℚ} {out : WinData ℚ}
    (h : t.run ref p dec = .ok out) : out.md.history = dec.md.history ++ ["WindowerTarget"] ∧
      ∀ q ∈ out.data, ∃ raw, dec.getLevel (q.1 : ℤ) = .ok raw ∧ levelView t.sizes ref dec.md q.1 raw = .ok q.2 := by
  unfold WindowerTarget.run at h
  obtain ⟨acc, hacc, h⟩ := except_bind_ok.1 h
  obtain ⟨h1, h2⟩ := windowedResult_history h
  refine ⟨h1, fun q hq => ?_⟩
  rw [h2] at hq
  rcases windowLoop_views _ _ _ _ _ _ _ _ hacc q hq with hx | hx
  · cases hx
  · exact hx

theorem mkSpecData_md {V : Type} {md : SpecMeta} {data : List (ℕ × SpecArr V)} {out : SpecData V}
    (h : mkSpecData md data = .ok out) : out.md = md := by
  unfold mkSpecData at h
  obtain ⟨_, _, h⟩ := except_bind_ok.1 h
  cases h
  rfl

theorem fourierRun_history {nfl : ℕ → ℕ} {ft : ℕ → List ℚ → List W} {win : WinData ℚ} {out : SpecData W}
    (h : fourierRun nfl ft win = .ok out) : out.md.history = win.md.history ++ ["FourierTransform"] := by
  unfold fourierRun at h
  obtain ⟨_, _, h⟩ := except_bind_ok.1 h
  rw [mkSpecData_md h]
  rfl

theorem decimatorRun_history (sp : SciPy) (u : Bool) (k : ℕ) (p : DecParams ℚ) {td : TimeData ℚ} {out : DecData ℚ}
    (h : Decimator.run sp u k p td = .ok out) : out.md.history = td.md.history ++ ["Decimator"] := by
  unfold Decimator.run decimatorRun at h
  obtain ⟨_, _, h⟩ := except_bind_ok.1 h
  obtain ⟨_, _, h⟩ := except_bind_ok.1 h
  cases h
  rfl

/-- The evaluation frequency process and the smoothers are lawful. -/
theorem evalFreqs_lawful [AddCommGroup W] [Module ℚ W] (p : DecParams ℚ) :
    (Call.spec "EvaluationFreqs" (evalFreqsRun (V := W) p)).Lawful := by
  intro d out h
  unfold evalFreqsRun at h
  obtain ⟨_, _, h⟩ := except_bind_ok.1 h
  rw [mkSpecData_md h]

theorem smooth_lawful (name : String) (filt : ℕ → List W → List W) : (Call.spec name (smoothRun name filt)).Lawful := by
  intro d out h
  unfold smoothRun at h
  obtain ⟨_, _, h⟩ := except_bind_ok.1 h
  rw [mkSpecData_md h]

/-- C38: the value returned by any call has the history of the input followed by exactly one record, named after the
process (none for a plain copy). -/
theorem C38_one_record (sp : SciPy) (c : Call W) (hc : c.Lawful) (v w : Value W) (h : callValue sp c v = some (.ok w)) :
    w.history = v.history ++ c.record := by
  cases c <;> cases v <;> simp only [callValue, Option.some.injEq, reduceCtorEq] at h
  case proc.time p d =>
    obtain ⟨a, ha, rfl⟩ := except_map_ok.1 h
    exact Proc.run_history sp p d a ha
  case copy.time d => cases h; simp [Call.record]
  case decimate.time u k p d =>
    obtain ⟨a, ha, rfl⟩ := except_map_ok.1 h
    exact decimatorRun_history sp u k p ha
  case window.dec ref p d =>
    obtain ⟨a, ha, rfl⟩ := except_map_ok.1 h
    exact (windowerRun_facts ha).1
  case windowTarget.dec t ref p d =>
    obtain ⟨a, ha, rfl⟩ := except_map_ok.1 h
    exact (windowerTarget_facts ha).1
  case fourier.win nfl ft d =>
    obtain ⟨a, ha, rfl⟩ := except_map_ok.1 h
    exact fourierRun_history ha
  case spec.spec name f d =>
    obtain ⟨a, ha, rfl⟩ := except_map_ok.1 h
    exact hc d a ha

/-! ## The effect of one call -/

/-- What a call does to the heap and what it returns. -/
structure Effect (sp : SciPy) (c : Call W) (o : Obj W) (h : Heap) (j : ℕ) (res : Except Err (Option (Obj W)))
    (h' : Heap) : Prop where
  run : c.run sp o h = (res, h')
  touch : ∃ t, WTouch j t h h'
  clean : c.Clean → Touch j [] h h'
  sound : ∀ o', res = .ok (some o') → ∃ cell r f, h'.Sound o'.md cell r f ∧
    if c.shares then cell.hist = j else h.hists.length ≤ cell.hist
  value : ∀ v, h.read o = .ok v → ∀ r, callValue sp c v = some r →
    (∀ e, r = .error e → res = .error e) ∧ (∀ w, r = .ok w → ∃ o', res = .ok (some o') ∧ h'.read o' = .ok w)

theorem effect_fail (sp : SciPy) (c : Call W) (o : Obj W) (h : Heap) (j : ℕ) (e : Err)
    (hrun : c.run sp o h = (.error e, h))
    (hv : ∀ v, h.read o = .ok v → ∀ r, callValue sp c v = some r → r = .error e) :
    Effect sp c o h j (.error e) h := by
  refine ⟨hrun, ⟨[], (Touch.refl _ _).weak⟩, fun _ => Touch.refl _ _, fun _ hx => (by cases hx), fun v h1 r h2 => ?_⟩
  have := hv v h1 r h2
  subst this
  exact ⟨fun e' he => by cases he; rfl, fun w hw => by cases hw⟩

theorem heapCopy_run {h : Heap} {md arr : ℕ} {c : MdCell} {r : List String} {f : List (String × List String)}
    (hs : h.Sound md c r f) {td : TimeData ℚ} (hr : h.readTime md arr = .ok td) :
    ∃ i a h', heapCopy md arr h = (.ok (i, a), h') ∧ Touch c.hist [] h h' ∧ h'.readTime i a = .ok td ∧
      ∃ c r, h'.Sound i c r f ∧ h.hists.length ≤ c.hist := by
  have hrun : heapCopy md arr h = (.ok (h.mds.length, h.arrs.length),
      { h.alloc c.payload r f with arrs := h.arrs ++ [td.data] }) := by
    unfold heapCopy
    rw [heap_reading_bind, hr]
    simp only
    rw [heap_bind, deepCopy_run hs.md hs.hist hs.files]
    rfl
  obtain ⟨hpay, harr⟩ := readTime_ok.1 hr
  obtain ⟨c0, r0, h1, h2, h3⟩ := payload_ok.1 hpay
  rw [hs.md] at h1; cases h1
  rw [hs.hist] at h2; cases h2
  refine ⟨_, _, _, hrun, ?_, ?_, ⟨⟨c.payload, h.hists.length, h.files.length⟩, r, ⟨deref_last _ _, deref_last _ _,
    deref_last _ _⟩, le_refl _⟩⟩
  · exact (touch_alloc h c.payload r f c.hist).trans (touch_arr _ td.data c.hist)
  · refine readTime_ok.2 ⟨?_, deref_last _ _⟩
    rw [h3]
    exact payload_alloc h c.payload r f

theorem heapWrite_run (w : String) {h : Heap} {md : ℕ} {c : MdCell} {r : List String} {f : List (String × List String)}
    (hs : h.Sound md c r f) :
    ∃ h', heapWrite w md h = (.ok h.mds.length, h') ∧ Touch c.hist [w] h h' ∧
      h'.Sound h.mds.length c (r ++ [w]) f := by
  have hrun : heapWrite w md h = (.ok h.mds.length,
      { h with mds := h.mds ++ [c], hists := h.hists.modify c.hist fun r => r ++ [w] }) := by
    unfold heapWrite
    rw [heap_bind, shallowCopy_run hs.md]
    simp only
    rw [heap_bind]
    unfold addRecord
    rw [deref_last]
    rfl
  refine ⟨_, hrun, (touch_md h c c.hist).trans (touch_record _ c.hist w), deref_last _ _, ?_, hs.files⟩
  have := deref_modify (fun r => r ++ [w]) c.hist hs.hist
  simpa using this

theorem deref_set {α : Type} {l : List α} {i : ℕ} {a : α} (j : ℕ) (b : α) (h : deref l i = .ok a) :
    deref (l.set j b) i = .ok (if i = j then b else a) := by
  rw [deref_ok] at *
  rw [List.getElem?_set]
  by_cases hij : j = i
  · subst hij
    simp [(List.getElem?_eq_some_iff.1 h).1]
  · rw [if_neg hij, if_neg (Ne.symm hij)]
    exact h

/-- Writing time data: the data files of every object that shares the channel metadata are replaced, and the record is
appended for every object that shares the history. -/
theorem heapWriteTime_run (w : String) (name : String → String) {h : Heap} {md : ℕ} {c : MdCell} {r : List String}
    {f : List (String × List String)} (hs : h.Sound md c r f) {m : TimeMeta} (hp : h.payload md = .ok (.time m)) :
    (∀ e, setDataFiles m.chans name f = .error e →
      heapWriteTime w name md h = (.error e, { h with mds := h.mds ++ [c] })) ∧
    (∀ f', setDataFiles m.chans name f = .ok f' → ∃ h', heapWriteTime w name md h = (.ok h.mds.length, h') ∧
      WTouch c.hist [w] h h' ∧ h'.Sound h.mds.length c (r ++ [w]) f' ∧
      (∀ i g, deref h.files i = .ok g → deref h'.files i = .ok (if i = c.files then f' else g))) := by
  have hlast : deref (h.mds ++ [c]) h.mds.length = .ok c := deref_last _ _
  have hfo : ({ h with mds := h.mds ++ [c] } : Heap).filesOf h.mds.length = .ok f := filesOf_ok.2 ⟨c, hlast, hs.files⟩
  constructor
  · intro e he
    unfold heapWriteTime
    rw [heap_reading_bind, hp]
    simp only
    rw [heap_bind, shallowCopy_run hs.md]
    simp only [bind_assoc]
    rw [heap_reading_bind, hfo]
    simp only
    rw [heap_reading_bind, he]
  · intro f' hf'
    have hrun : heapWriteTime w name md h = (.ok h.mds.length,
        { h with mds := h.mds ++ [c], hists := h.hists.modify c.hist fun r => r ++ [w],
                 files := h.files.set c.files f' }) := by
      unfold heapWriteTime
      rw [heap_reading_bind, hp]
      simp only
      rw [heap_bind, shallowCopy_run hs.md]
      simp only [bind_assoc]
      rw [heap_reading_bind, hfo]
      simp only
      rw [heap_reading_bind, hf']
      simp only
      rw [heap_bind]
      unfold setFiles
      simp only [hlast]
      rw [heap_bind]
      unfold addRecord
      simp only [hlast]
      rfl
    refine ⟨_, hrun, ⟨fun i c hc => deref_append hc, fun i r hr => deref_modify _ _ hr, fun i g hg =>
      ⟨_, deref_set _ _ hg⟩, fun i a ha => ha⟩, ⟨hlast, ?_, ?_⟩, fun i g hg => deref_set _ _ hg⟩
    · have := deref_modify (fun r => r ++ [w]) c.hist hs.hist
      simpa using this
    · have := deref_set c.files f' hs.files
      simpa using this

theorem readTime_error_or (h : Heap) (md arr : ℕ) : (∃ e, h.readTime md arr = .error e) ∨ ∃ td, h.readTime md arr = .ok td := by
  cases h.readTime md arr <;> simp

/-- Every call on an object that does not assign samples has an effect of the kind above. -/
theorem call_effect (sp : SciPy) (c : Call W) (hl : c.Lawful) (hna : ¬ c.assigns) {h : Heap} {o : Obj W} {cell : MdCell}
    {r : List String} {f : List (String × List String)} (hs : h.Sound o.md cell r f) :
    ∃ res h', Effect sp c o h cell.hist res h' := by
  have wrong : c.run sp o h = (.error .attribute, h) → (∀ v, h.read o = .ok v → callValue sp c v = none) →
      ∃ res h', Effect sp c o h cell.hist res h' := by
    intro hrun hv
    exact ⟨_, _, effect_fail sp c o h cell.hist .attribute hrun (fun v h1 r h2 => by rw [hv v h1] at h2; cases h2)⟩
  have kinds : ∀ v, h.read o = .ok v → (match o, v with
      | .time _ _, .time _ => True | .dec _ _, .dec _ => True | .win _ _, .win _ => True | .spec _ _, .spec _ => True
      | _, _ => False) := by
    intro v hv
    cases o <;> obtain ⟨d, _, rfl⟩ := except_map_ok.1 hv <;> trivial
  cases c with
  | proc p =>
    cases o with
    | time m a =>
      replace hs : h.Sound m cell r f := hs
      cases hr : h.readTime m a with
      | error e =>
        refine ⟨_, _, effect_fail sp _ _ h cell.hist e ?_ (fun v h1 => ?_)⟩
        · show ((heapProc sp p m a >>= fun r => pure (some (Obj.time r.1 r.2))) : HeapM (Option (Obj W))) h = _
          rw [heap_bind]
          unfold heapProc
          rw [heap_reading_bind, hr]
        · simp [Heap.read, hr, Except.map] at h1
      | ok td =>
        have hread : h.read (.time m a : Obj W) = .ok (.time td) := by simp [Heap.read, hr, Except.map]
        cases hp : p.run sp td with
        | error e =>
          refine ⟨_, _, effect_fail sp _ _ h cell.hist e ?_ (fun v h1 r h2 => ?_)⟩
          · show ((heapProc sp p m a >>= fun r => pure (some (Obj.time r.1 r.2))) : HeapM (Option (Obj W))) h = _
            rw [heap_bind, heapProc_error sp p hr hp]
          · rw [hread] at h1; cases h1
            simp only [callValue, hp, Except.map, Option.some.injEq] at h2
            exact h2.symm
        | ok out =>
          obtain ⟨i, b, h', hrun, ht, ho, c', r', hs', hsh, hns⟩ := heapProc_run sp p hs hr hp
          refine ⟨.ok (some (.time i b)), h', ?_, ⟨_, ht.weak⟩, fun hcl => ?_, fun o' ho' => ?_, fun v h1 r h2 => ?_⟩
          · show ((heapProc sp p m a >>= fun r => pure (some (Obj.time r.1 r.2))) : HeapM (Option (Obj W))) h = _
            rw [heap_bind, hrun]
            rfl
          · have hcl' : p.shallow = false := (Proc.shallow_eq p).trans hcl
            simpa [hcl'] using ht
          · cases ho'
            refine ⟨_, _, _, hs', ?_⟩
            cases hx : p.shallow with
            | true => simpa [Call.shares, ← Proc.shallow_eq, hx] using (hsh hx).1
            | false => simpa [Call.shares, ← Proc.shallow_eq, hx] using hns hx
          · rw [hread] at h1; cases h1
            simp only [callValue, hp, Except.map, Option.some.injEq] at h2
            subst h2
            refine ⟨fun e he => (by cases he), fun w hw => ?_⟩
            cases hw
            exact ⟨_, rfl, by simp [Heap.read, ho, Except.map]⟩
    | dec m a => exact wrong rfl (fun v hv => by have := kinds v hv; cases v <;> first | rfl | cases this)
    | win m a => exact wrong rfl (fun v hv => by have := kinds v hv; cases v <;> first | rfl | cases this)
    | spec m a => exact wrong rfl (fun v hv => by have := kinds v hv; cases v <;> first | rfl | cases this)
  | copy =>
    cases o with
    | time m a =>
      replace hs : h.Sound m cell r f := hs
      cases hr : h.readTime m a with
      | error e =>
        refine ⟨_, _, effect_fail sp _ _ h cell.hist e ?_ (fun v h1 => ?_)⟩
        · show ((heapCopy m a >>= fun r => pure (some (Obj.time r.1 r.2))) : HeapM (Option (Obj W))) h = _
          rw [heap_bind]
          unfold heapCopy
          rw [heap_reading_bind, hr]
        · simp [Heap.read, hr, Except.map] at h1
      | ok td =>
        have hread : h.read (.time m a : Obj W) = .ok (.time td) := by simp [Heap.read, hr, Except.map]
        obtain ⟨i, b, h', hrun, ht, ho, c', r', hs'⟩ := heapCopy_run hs hr
        refine ⟨.ok (some (.time i b)), h', ?_, ⟨_, ht.weak⟩, fun hcl => ht, fun o' ho' => ?_, fun v h1 r h2 => ?_⟩
        · show ((heapCopy m a >>= fun r => pure (some (Obj.time r.1 r.2))) : HeapM (Option (Obj W))) h = _
          rw [heap_bind, hrun]
          rfl
        · cases ho'; exact ⟨_, _, _, hs'.1, by simpa [Call.shares] using hs'.2⟩
        · rw [hread] at h1; cases h1
          simp only [callValue, Option.some.injEq] at h2
          subst h2
          refine ⟨fun e he => (by cases he), fun w hw => ?_⟩
          cases hw
          exact ⟨_, rfl, by simp [Heap.read, ho, Except.map]⟩
    | dec m a => exact wrong rfl (fun v hv => by have := kinds v hv; cases v <;> first | rfl | cases this)
    | win m a => exact wrong rfl (fun v hv => by have := kinds v hv; cases v <;> first | rfl | cases this)
    | spec m a => exact wrong rfl (fun v hv => by have := kinds v hv; cases v <;> first | rfl | cases this)
  | setChan ch row => exact absurd trivial hna
  | writeTime w n =>
    cases o with
    | time m a =>
      have hnone : ∀ v, h.read (.time m a : Obj W) = .ok v → callValue sp (.writeTime w n) v = none := by
        intro v _; cases v <;> rfl
      have hnval : ∀ (res : Except Err (Option (Obj W))) (h' : Heap), ∀ v, h.read (.time m a : Obj W) = .ok v → ∀ r,
          callValue sp (.writeTime w n) v = some r →
          (∀ e, r = .error e → res = .error e) ∧ (∀ w, r = .ok w → ∃ o', res = .ok (some o') ∧ h'.read o' = .ok w) := by
        intro res h' v hv r hr
        rw [hnone v hv] at hr; cases hr
      replace hs : h.Sound m cell r f := hs
      obtain ⟨r', hpay⟩ : ∃ r', h.payload m = .ok r' := ⟨_, payload_ok.2 ⟨cell, r, hs.md, hs.hist, rfl⟩⟩
      have htime : ∀ pl, h.payload m = .ok pl → (∀ tm, pl ≠ .time tm) →
          ∃ h', (Call.writeTime w n).run sp (.time m a : Obj W) h = (.ok none, h') ∧ Touch cell.hist [w] h h' := by
        intro pl hpl hnt
        obtain ⟨h', hw, ht, _⟩ := heapWrite_run w hs
        refine ⟨h', ?_, ht⟩
        show ((heapWriteTime w n m >>= fun _ => pure none) : HeapM (Option (Obj W))) h = _
        have : heapWriteTime w n m h = heapWrite w m h := by
          unfold heapWriteTime heapWrite
          rw [heap_reading_bind, hpl]
          simp only
        rw [heap_bind, this, hw]
        rfl
      by_cases hx : ∃ tm, r' = .time tm
      · obtain ⟨tm, rfl⟩ := hx
        obtain ⟨he, ho⟩ := heapWriteTime_run w n hs hpay
        cases hset : setDataFiles tm.chans n f with
        | error e =>
          have hrun := he e hset
          refine ⟨.error e, _, ?_, ⟨[], (touch_md h cell cell.hist).weak⟩, fun hcl => hcl.elim, fun o' ho' => (by cases ho'),
            hnval _ _⟩
          show ((heapWriteTime w n m >>= fun _ => pure none) : HeapM (Option (Obj W))) h = _
          rw [heap_bind, hrun]
        | ok f' =>
          obtain ⟨h', hrun, ht, _⟩ := ho f' hset
          refine ⟨.ok none, h', ?_, ⟨_, ht⟩, fun hcl => hcl.elim, fun o' ho' => (by cases ho'), hnval _ _⟩
          show ((heapWriteTime w n m >>= fun _ => pure none) : HeapM (Option (Obj W))) h = _
          rw [heap_bind, hrun]
          rfl
      · obtain ⟨h', hrun, ht⟩ := htime r' hpay (fun tm hh => hx ⟨tm, hh⟩)
        exact ⟨.ok none, h', hrun, ⟨_, ht.weak⟩, fun hcl => hcl.elim, fun o' ho' => (by cases ho'), hnval _ _⟩
    | dec m a => exact wrong rfl (fun v hv => by cases v <;> rfl)
    | win m a => exact wrong rfl (fun v hv => by cases v <;> rfl)
    | spec m a => exact wrong rfl (fun v hv => by cases v <;> rfl)
  | write w =>
    obtain ⟨h', hw, ht, _⟩ := heapWrite_run w hs
    refine ⟨.ok none, h', ?_, ⟨_, ht.weak⟩, fun hcl => hcl.elim, fun o' ho' => (by cases ho'), fun v hv r hr => ?_⟩
    · show ((heapWrite w o.md >>= fun _ => pure none) : HeapM (Option (Obj W))) h = _
      rw [heap_bind, hw]
      rfl
    · cases v <;> cases hr
  | decimate u k p =>
    cases o with
    | time m a =>
      replace hs : h.Sound m cell r f := hs
      cases hr : h.readTime m a with
      | error e =>
        refine ⟨_, _, effect_fail sp _ _ h cell.hist e ?_ (fun v h1 => ?_)⟩
        · show ((heapDecimator sp u k p (m, a) >>= fun r => pure (some (Obj.dec r.1 r.2))) : HeapM (Option (Obj W))) h = _
          rw [heap_bind]
          unfold heapDecimator
          rw [heap_reading_bind, hr]
        · simp [Heap.read, hr, Except.map] at h1
      | ok td =>
        have hread : h.read (.time m a : Obj W) = .ok (.time td) := by simp [Heap.read, hr, Except.map]
        obtain ⟨res, h', n, hrun, hn, ht, hz, he, ho⟩ := heapDecimator_run (o := (m, a)) sp u k p hs hr
        have hrun' : (Call.decimate u k p).run sp (.time m a : Obj W) h =
            (res.map fun r => some (.dec r.1 r.2), h') := by
          show ((heapDecimator sp u k p (m, a) >>= fun r => pure (some (Obj.dec r.1 r.2))) : HeapM (Option (Obj W))) h = _
          rw [heap_bind, hrun]
          cases res <;> rfl
        refine ⟨_, _, hrun', ⟨_, ht.weak⟩, fun hcl => ?_, fun o' ho' => ?_, fun v h1 r h2 => ?_⟩
        · have := hz hcl
          subst this
          exact ht
        · cases hd : Decimator.run sp u k p td with
          | error e => rw [he e hd] at ho'; cases ho'
          | ok out =>
            obtain ⟨i, ls, hres, _, ⟨c', r', hs'⟩, _⟩ := ho out hd
            rw [hres] at ho'
            cases ho'
            exact ⟨_, _, _, hs'.1, by simpa [Call.shares] using hs'.2⟩
        · rw [hread] at h1; cases h1
          simp only [callValue, Option.some.injEq] at h2
          subst h2
          cases hd : Decimator.run sp u k p td with
          | error e =>
            refine ⟨fun e' he' => ?_, fun w hw => by cases hw⟩
            cases he'
            rw [he e hd]; rfl
          | ok out =>
            obtain ⟨i, ls, hres, hrd, _⟩ := ho out hd
            refine ⟨fun e' he' => (by cases he'), fun w hw => ?_⟩
            cases hw
            refine ⟨.dec i ls, ?_, by simp [Heap.read, hrd, Except.map]⟩
            rw [hres]; rfl
    | dec m a => exact wrong rfl (fun v hv => by have := kinds v hv; cases v <;> first | rfl | cases this)
    | win m a => exact wrong rfl (fun v hv => by have := kinds v hv; cases v <;> first | rfl | cases this)
    | spec m a => exact wrong rfl (fun v hv => by have := kinds v hv; cases v <;> first | rfl | cases this)
  | window ref p =>
    cases o with
    | time m a => exact wrong rfl (fun v hv => by have := kinds v hv; cases v <;> first | rfl | cases this)
    | dec m a =>
      cases hr : h.readDec m a with
      | error e =>
        refine ⟨_, _, effect_fail sp _ _ h cell.hist e ?_ (fun v h1 => ?_)⟩
        · show ((heapWindower "Windower" (windowerSizes p) ref (windowerRun ref p) m a >>=
            fun r => pure (some (Obj.win r.1 r.2))) : HeapM (Option (Obj W))) h = _
          rw [heap_bind]
          unfold heapWindower
          rw [heap_reading_bind, hr]
        · simp [Heap.read, hr, Except.map] at h1
      | ok td =>
        have hread : h.read (.dec m a : Obj W) = .ok (.dec td) := by simp [Heap.read, hr, Except.map]
        obtain ⟨he, ho⟩ := heapWindower_run "Windower" (windowerSizes p) ref (windowerRun ref p) hr
          (filesOf_ok.2 ⟨cell, hs.md, hs.files⟩)
        cases hp : windowerRun ref p td with
        | error e =>
          refine ⟨_, _, effect_fail sp _ _ h cell.hist e ?_ (fun v h1 r h2 => ?_)⟩
          · show ((heapWindower "Windower" (windowerSizes p) ref (windowerRun ref p) m a >>=
              fun r => pure (some (Obj.win r.1 r.2))) : HeapM (Option (Obj W))) h = _
            rw [heap_bind, he e hp]
          · rw [hread] at h1; cases h1
            simp only [callValue, hp, Except.map, Option.some.injEq] at h2
            exact h2.symm
        | ok out =>
          obtain ⟨i, b, h', hrun, ht, ho, c', r', hs'⟩ := ho out hp (windowerRun_facts hp).1 (windowerRun_facts hp).2
          refine ⟨.ok (some (.win i b)), h', ?_, ⟨[], (ht _).weak⟩, fun hcl => ht _, fun o' ho' => ?_, fun v h1 r h2 => ?_⟩
          · show ((heapWindower "Windower" (windowerSizes p) ref (windowerRun ref p) m a >>=
              fun r => pure (some (Obj.win r.1 r.2))) : HeapM (Option (Obj W))) h = _
            rw [heap_bind, hrun]
            rfl
          · cases ho'; exact ⟨_, _, _, hs'.1, by simpa [Call.shares] using hs'.2⟩
          · rw [hread] at h1; cases h1
            simp only [callValue, hp, Except.map, Option.some.injEq] at h2
            subst h2
            refine ⟨fun e he => (by cases he), fun w hw => ?_⟩
            cases hw
            exact ⟨_, rfl, by simp [Heap.read, ho, Except.map]⟩
    | win m a => exact wrong rfl (fun v hv => by have := kinds v hv; cases v <;> first | rfl | cases this)
    | spec m a => exact wrong rfl (fun v hv => by have := kinds v hv; cases v <;> first | rfl | cases this)
  | windowTarget t ref p =>
    cases o with
    | time m a => exact wrong rfl (fun v hv => by have := kinds v hv; cases v <;> first | rfl | cases this)
    | dec m a =>
      cases hr : h.readDec m a with
      | error e =>
        refine ⟨_, _, effect_fail sp _ _ h cell.hist e ?_ (fun v h1 => ?_)⟩
        · show ((heapWindower "WindowerTarget" t.sizes ref (t.run ref p) m a >>=
            fun r => pure (some (Obj.win r.1 r.2))) : HeapM (Option (Obj W))) h = _
          rw [heap_bind]
          unfold heapWindower
          rw [heap_reading_bind, hr]
        · simp [Heap.read, hr, Except.map] at h1
      | ok td =>
        have hread : h.read (.dec m a : Obj W) = .ok (.dec td) := by simp [Heap.read, hr, Except.map]
        obtain ⟨he, ho⟩ := heapWindower_run "WindowerTarget" t.sizes ref (t.run ref p) hr
          (filesOf_ok.2 ⟨cell, hs.md, hs.files⟩)
        cases hp : t.run ref p td with
        | error e =>
          refine ⟨_, _, effect_fail sp _ _ h cell.hist e ?_ (fun v h1 r h2 => ?_)⟩
          · show ((heapWindower "WindowerTarget" t.sizes ref (t.run ref p) m a >>=
              fun r => pure (some (Obj.win r.1 r.2))) : HeapM (Option (Obj W))) h = _
            rw [heap_bind, he e hp]
          · rw [hread] at h1; cases h1
            simp only [callValue, hp, Except.map, Option.some.injEq] at h2
            exact h2.symm
        | ok out =>
          obtain ⟨i, b, h', hrun, ht, ho, c', r', hs'⟩ := ho out hp (windowerTarget_facts hp).1 (windowerTarget_facts hp).2
          refine ⟨.ok (some (.win i b)), h', ?_, ⟨[], (ht _).weak⟩, fun hcl => ht _, fun o' ho' => ?_, fun v h1 r h2 => ?_⟩
          · show ((heapWindower "WindowerTarget" t.sizes ref (t.run ref p) m a >>=
              fun r => pure (some (Obj.win r.1 r.2))) : HeapM (Option (Obj W))) h = _
            rw [heap_bind, hrun]
            rfl
          · cases ho'; exact ⟨_, _, _, hs'.1, by simpa [Call.shares] using hs'.2⟩
          · rw [hread] at h1; cases h1
            simp only [callValue, hp, Except.map, Option.some.injEq] at h2
            subst h2
            refine ⟨fun e he => (by cases he), fun w hw => ?_⟩
            cases hw
            exact ⟨_, rfl, by simp [Heap.read, ho, Except.map]⟩
    | win m a => exact wrong rfl (fun v hv => by have := kinds v hv; cases v <;> first | rfl | cases this)
    | spec m a => exact wrong rfl (fun v hv => by have := kinds v hv; cases v <;> first | rfl | cases this)
  | fourier nfl ft =>
    cases o with
    | time m a => exact wrong rfl (fun v hv => by have := kinds v hv; cases v <;> first | rfl | cases this)
    | dec m a => exact wrong rfl (fun v hv => by have := kinds v hv; cases v <;> first | rfl | cases this)
    | win m a =>
      cases hr : h.readWin m a with
      | error e =>
        refine ⟨_, _, effect_fail sp _ _ h cell.hist e ?_ (fun v h1 => ?_)⟩
        · show ((heapFourier nfl ft m a >>= fun r => pure (some (Obj.spec r.1 r.2))) : HeapM (Option (Obj W))) h = _
          rw [heap_bind]
          unfold heapFourier
          rw [heap_reading_bind, hr]
        · simp [Heap.read, hr, Except.map] at h1
      | ok td =>
        have hread : h.read (.win m a : Obj W) = .ok (.win td) := by simp [Heap.read, hr, Except.map]
        obtain ⟨he, ho⟩ := heapFourier_run nfl ft hr (filesOf_ok.2 ⟨cell, hs.md, hs.files⟩)
        cases hp : fourierRun nfl ft td with
        | error e =>
          refine ⟨_, _, effect_fail sp _ _ h cell.hist e ?_ (fun v h1 r h2 => ?_)⟩
          · show ((heapFourier nfl ft m a >>= fun r => pure (some (Obj.spec r.1 r.2))) : HeapM (Option (Obj W))) h = _
            rw [heap_bind, he e hp]
          · rw [hread] at h1; cases h1
            simp only [callValue, hp, Except.map, Option.some.injEq] at h2
            exact h2.symm
        | ok out =>
          obtain ⟨i, h', hrun, ht, ho, c', r', hs'⟩ := ho out hp (fourierRun_history hp)
          refine ⟨.ok (some (.spec i out.data)), h', ?_, ⟨[], (ht _).weak⟩, fun hcl => ht _, fun o' ho' => ?_,
            fun v h1 r h2 => ?_⟩
          · show ((heapFourier nfl ft m a >>= fun r => pure (some (Obj.spec r.1 r.2))) : HeapM (Option (Obj W))) h = _
            rw [heap_bind, hrun]
            rfl
          · cases ho'; exact ⟨_, _, _, hs'.1, by simpa [Call.shares] using hs'.2⟩
          · rw [hread] at h1; cases h1
            simp only [callValue, hp, Except.map, Option.some.injEq] at h2
            subst h2
            refine ⟨fun e he => (by cases he), fun w hw => ?_⟩
            cases hw
            exact ⟨_, rfl, by simp [Heap.read, ho, Except.map]⟩
    | spec m a => exact wrong rfl (fun v hv => by have := kinds v hv; cases v <;> first | rfl | cases this)
  | spec name g =>
    cases o with
    | time m a => exact wrong rfl (fun v hv => by have := kinds v hv; cases v <;> first | rfl | cases this)
    | dec m a => exact wrong rfl (fun v hv => by have := kinds v hv; cases v <;> first | rfl | cases this)
    | win m a => exact wrong rfl (fun v hv => by have := kinds v hv; cases v <;> first | rfl | cases this)
    | spec m a =>
      cases hr : h.readSpec m a with
      | error e =>
        refine ⟨_, _, effect_fail sp _ _ h cell.hist e ?_ (fun v h1 => ?_)⟩
        · show ((heapSpec name g m a >>= fun r => pure (some (Obj.spec r.1 r.2))) : HeapM (Option (Obj W))) h = _
          rw [heap_bind]
          unfold heapSpec
          rw [heap_reading_bind, hr]
        · simp [Heap.read, hr, Except.map] at h1
      | ok td =>
        have hread : h.read (.spec m a : Obj W) = .ok (.spec td) := by simp [Heap.read, hr, Except.map]
        obtain ⟨he, ho⟩ := heapSpec_run name g hr (filesOf_ok.2 ⟨cell, hs.md, hs.files⟩)
        cases hp : g td with
        | error e =>
          refine ⟨_, _, effect_fail sp _ _ h cell.hist e ?_ (fun v h1 r h2 => ?_)⟩
          · show ((heapSpec name g m a >>= fun r => pure (some (Obj.spec r.1 r.2))) : HeapM (Option (Obj W))) h = _
            rw [heap_bind, he e hp]
          · rw [hread] at h1; cases h1
            simp only [callValue, hp, Except.map, Option.some.injEq] at h2
            exact h2.symm
        | ok out =>
          obtain ⟨i, h', hrun, ht, ho, c', r', hs'⟩ := ho out hp (hl td out hp)
          refine ⟨.ok (some (.spec i out.data)), h', ?_, ⟨[], (ht _).weak⟩, fun hcl => ht _, fun o' ho' => ?_,
            fun v h1 r h2 => ?_⟩
          · show ((heapSpec name g m a >>= fun r => pure (some (Obj.spec r.1 r.2))) : HeapM (Option (Obj W))) h = _
            rw [heap_bind, hrun]
            rfl
          · cases ho'; exact ⟨_, _, _, hs'.1, by simpa [Call.shares] using hs'.2⟩
          · rw [hread] at h1; cases h1
            simp only [callValue, hp, Except.map, Option.some.injEq] at h2
            subst h2
            refine ⟨fun e he => (by cases he), fun w hw => ?_⟩
            cases hw
            exact ⟨_, rfl, by simp [Heap.read, ho, Except.map]⟩

end Resistics
