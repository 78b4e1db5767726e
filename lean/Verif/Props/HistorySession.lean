import Verif.Props.HistoryCalls

/-!
# C38: any sequence of calls

A session is a heap with the objects made so far; `Session.exec` runs any list of calls on any of them.
-/

namespace Resistics

variable {W : Type}

/-- Every object of the session has metadata that can be read. -/
def Session.Sound (s : Session W) : Prop := ∀ o ∈ s.objs, ∃ c r f, s.heap.Sound o.md c r f

/-- What any call may do to the metadata that exist. -/
structure Grow (h h' : Heap) : Prop where
  mds : ∀ i c, deref h.mds i = .ok c → deref h'.mds i = .ok c
  hists : ∀ i r, deref h.hists i = .ok r → ∃ t, deref h'.hists i = .ok (r ++ t)
  files : ∀ i f, deref h.files i = .ok f → ∃ f', deref h'.files i = .ok f'

theorem Grow.refl (h : Heap) : Grow h h := ⟨fun _ _ x => x, fun _ _ x => ⟨[], by simpa using x⟩, fun _ f x => ⟨f, x⟩⟩

theorem Grow.trans {h h' h'' : Heap} (a : Grow h h') (b : Grow h' h'') : Grow h h'' := by
  refine ⟨fun i c x => b.mds i c (a.mds i c x), fun i r x => ?_, fun i f x => ?_⟩
  · obtain ⟨t, ht⟩ := a.hists i r x
    obtain ⟨u, hu⟩ := b.hists i _ ht
    exact ⟨t ++ u, by rw [hu, List.append_assoc]⟩
  · obtain ⟨f', hf'⟩ := a.files i f x
    exact b.files i f' hf'

theorem WTouch.grow {j : ℕ} {t : List String} {h h' : Heap} (a : WTouch j t h h') : Grow h h' := by
  refine ⟨a.mds, fun i r x => ?_, a.files⟩
  refine ⟨if i = j then t else [], ?_⟩
  rw [a.hists i r x]
  split <;> simp

theorem Grow.sound {h h' : Heap} (a : Grow h h') {md : ℕ} {c : MdCell} {r : List String}
    {f : List (String × List String)} (hs : h.Sound md c r f) : ∃ r' f', h'.Sound md c r' f' := by
  obtain ⟨t, ht⟩ := a.hists _ _ hs.hist
  obtain ⟨f', hf'⟩ := a.files _ _ hs.files
  exact ⟨_, _, a.mds _ _ hs.md, ht, hf'⟩

theorem Grow.payload {h h' : Heap} (a : Grow h h') {i : ℕ} {p : Payload} (hp : h.payload i = .ok p) :
    ∃ t, h'.payload i = .ok (p.withHistory (p.history ++ t)) := by
  obtain ⟨c, r, h1, h2, rfl⟩ := payload_ok.1 hp
  obtain ⟨t, ht⟩ := a.hists _ _ h2
  refine ⟨t, payload_ok.2 ⟨c, r ++ t, a.mds _ _ h1, ht, ?_⟩⟩
  rw [payload_withHistory_history, payload_withHistory_twice]

/-- `set_chan`: on success the array of the object is replaced, and nothing else; on failure nothing happens. -/
theorem heapSetChan_run (ch : String) (row : List ℚ) (h : Heap) (m a : ℕ) :
    (∃ e, heapSetChan ch row m a h = (.error e, h)) ∨
    ∃ td out, h.readTime m a = .ok td ∧ td.setChan ch row = .ok out ∧
      heapSetChan ch row m a h = (.ok (), { h with arrs := h.arrs.set a out.data }) := by
  cases hr : h.readTime m a with
  | error e =>
    left
    refine ⟨e, ?_⟩
    unfold heapSetChan
    rw [heap_reading_bind, hr]
  | ok td =>
    cases ho : td.setChan ch row with
    | error e =>
      left
      refine ⟨e, ?_⟩
      unfold heapSetChan
      rw [heap_reading_bind, hr]
      simp only
      rw [heap_reading_bind, ho]
    | ok out =>
      right
      refine ⟨td, out, rfl, ho, ?_⟩
      unfold heapSetChan
      rw [heap_reading_bind, hr]
      simp only
      rw [heap_reading_bind, ho]
      rfl

/-- The effect of a call that assigns samples on the metadata: none. -/
theorem setChan_grow (sp : SciPy) (ch : String) (row : List ℚ) (o : Obj W) (h : Heap) :
    ∃ res h', (Call.setChan ch row).run sp o h = (res, h') ∧ Grow h h' ∧ (∀ o', res ≠ .ok (some o')) := by
  cases o with
  | time m a =>
    rcases heapSetChan_run ch row h m a with ⟨e, he⟩ | ⟨td, out, _, _, hrun⟩
    · refine ⟨.error e, h, ?_, Grow.refl h, fun o' => by simp⟩
      show ((heapSetChan ch row m a >>= fun _ => pure none) : HeapM (Option (Obj W))) h = _
      rw [heap_bind, he]
    · refine ⟨.ok none, { h with arrs := h.arrs.set a out.data }, ?_, ?_, fun o' => by simp⟩
      · show ((heapSetChan ch row m a >>= fun _ => pure none) : HeapM (Option (Obj W))) h = _
        rw [heap_bind, hrun]
        rfl
      · exact ⟨fun _ _ x => x, fun _ _ x => ⟨[], by simpa using x⟩, fun _ f x => ⟨f, x⟩⟩
  | dec m a => exact ⟨.error .attribute, h, rfl, Grow.refl h, fun o' => by simp⟩
  | win m a => exact ⟨.error .attribute, h, rfl, Grow.refl h, fun o' => by simp⟩
  | spec m a => exact ⟨.error .attribute, h, rfl, Grow.refl h, fun o' => by simp⟩

/-- The object that a call adds to the session. -/
def newObj : Except Err (Option (Obj W)) → List (Obj W)
  | .ok (some o) => [o]
  | _ => []

theorem step_eq (sp : SciPy) (s : Session W) (c : Call W) (i : ℕ) (o : Obj W) (hi : s.objs[i]? = some o)
    (res : Except Err (Option (Obj W))) (h' : Heap) (hrun : c.run sp o s.heap = (res, h')) :
    s.step sp (c, i) = { heap := h', objs := s.objs ++ newObj res } := by
  unfold Session.step
  have hrun' : (c.run sp o).run s.heap = (res, h') := hrun
  simp only [hi, hrun']
  rcases res with e | o'
  · simp [newObj]
  · cases o' <;> simp [newObj]

theorem step_grow (sp : SciPy) (s : Session W) (hs : s.Sound) (c : Call W × ℕ) (hl : c.1.Lawful) :
    (s.step sp c).Sound ∧ Grow s.heap (s.step sp c).heap ∧ ∃ l, (s.step sp c).objs = s.objs ++ l := by
  obtain ⟨c, i⟩ := c
  cases hi : s.objs[i]? with
  | none =>
    have : s.step sp (c, i) = s := by simp [Session.step, hi]
    rw [this]
    exact ⟨hs, Grow.refl _, [], by simp⟩
  | some o =>
    obtain ⟨cell, r, f, hso⟩ := hs o (List.mem_of_getElem? hi)
    have hmain : ∃ res h', c.run sp o s.heap = (res, h') ∧ Grow s.heap h' ∧
        ∀ o', res = .ok (some o') → ∃ c r f, h'.Sound o'.md c r f := by
      by_cases ha : c.assigns
      · cases c with
        | setChan ch row =>
          obtain ⟨res, h', h1, h2, h3⟩ := setChan_grow sp ch row o s.heap
          exact ⟨res, h', h1, h2, fun o' ho => absurd ho (h3 o')⟩
        | _ => exact absurd ha (by simp [Call.assigns])
      · obtain ⟨res, h', heff⟩ := call_effect sp c hl ha hso
        obtain ⟨t, ht⟩ := heff.touch
        refine ⟨res, h', heff.run, ht.grow, fun o' ho => ?_⟩
        obtain ⟨c', r', f', h1, _⟩ := heff.sound o' ho
        exact ⟨c', r', f', h1⟩
    obtain ⟨res, h', hrun, hg, hnew⟩ := hmain
    rw [step_eq sp s c i o hi res h' hrun]
    refine ⟨fun o2 ho2 => ?_, hg, newObj res, rfl⟩
    rcases List.mem_append.1 ho2 with h1 | h1
    · obtain ⟨c2, r2, f2, hs2⟩ := hs o2 h1
      obtain ⟨r', f', hs'⟩ := hg.sound hs2
      exact ⟨_, _, _, hs'⟩
    · refine hnew o2 ?_
      rcases res with e | o'
      · cases h1
      · cases o' with
        | none => cases h1
        | some x =>
          have : o2 = x := by simpa [newObj] using h1
          rw [this]

/-- C38: whatever calls are made, in any order and with any failures, the metadata of every object that existed before
differ from what they were at most by records appended at the end of the history: all other fields, sampling
frequency, times, channels and levels, are what they were. -/
theorem C38_append_only (sp : SciPy) (s : Session W) (hs : s.Sound) (calls : List (Call W × ℕ))
    (hl : ∀ c ∈ calls, c.1.Lawful) (o : Obj W) (ho : o ∈ s.objs) (p : Payload) (hp : s.heap.payload o.md = .ok p) :
    o ∈ (s.exec sp calls).objs ∧
      ∃ t, (s.exec sp calls).heap.payload o.md = .ok (p.withHistory (p.history ++ t)) := by
  have hmain : ∀ (calls : List (Call W × ℕ)) (s : Session W), s.Sound → (∀ c ∈ calls, c.1.Lawful) →
      Grow s.heap (s.exec sp calls).heap ∧ ∃ l, (s.exec sp calls).objs = s.objs ++ l := by
    intro calls
    induction calls with
    | nil => intro s _ _; exact ⟨Grow.refl _, [], by simp [Session.exec]⟩
    | cons c calls ih =>
      intro s hs hl
      obtain ⟨h1, h2, l, h3⟩ := step_grow sp s hs c (hl c (by simp))
      obtain ⟨h4, l', h5⟩ := ih (s.step sp c) h1 (fun c hc => hl c (by simp [hc]))
      refine ⟨h2.trans h4, l ++ l', ?_⟩
      show (Session.exec sp (s.step sp c) calls).objs = _
      rw [h5, h3, List.append_assoc]
  obtain ⟨h1, l, h2⟩ := hmain calls s hs hl
  refine ⟨?_, h1.payload hp⟩
  rw [h2]
  exact List.mem_append_left _ ho

/-! ## Contents -/

theorem Value.addHistory_twice (v : Value W) (t u : List String) :
    (v.addHistory t).addHistory u = v.addHistory (t ++ u) := by
  cases v <;> simp [Value.addHistory]

/-- C38: without in-place assignment of samples, the whole contents of every object, data included, change at most by
appended records. -/
theorem C38_contents_kept (sp : SciPy) (s : Session W) (hs : s.Sound) (calls : List (Call W × ℕ))
    (hl : ∀ c ∈ calls, c.1.Lawful ∧ ¬ c.1.assigns) (o : Obj W) (v : Value W)
    (hv : s.heap.read o = .ok v) : ∃ t, (s.exec sp calls).heap.read o = .ok (v.addHistory t) := by
  induction calls generalizing s v with
  | nil => exact ⟨[], by rw [Value.addHistory_nil]; exact hv⟩
  | cons c calls ih =>
    obtain ⟨hl1, hl2⟩ := hl c (by simp)
    obtain ⟨h1, _, _⟩ := step_grow sp s hs c hl1
    have hstep : ∃ t, (s.step sp c).heap.read o = .ok (v.addHistory t) := by
      obtain ⟨c, i⟩ := c
      cases hi : s.objs[i]? with
      | none =>
        have : s.step sp (c, i) = s := by simp [Session.step, hi]
        rw [this]
        exact ⟨[], by rw [Value.addHistory_nil]; exact hv⟩
      | some o' =>
        obtain ⟨cell, r, f, hso⟩ := hs o' (List.mem_of_getElem? hi)
        obtain ⟨res, h', heff⟩ := call_effect sp c hl1 hl2 hso
        obtain ⟨t, ht⟩ := heff.touch
        rw [step_eq sp s c i o' hi res h' heff.run]
        exact ⟨_, ht.read hv⟩
    obtain ⟨t, ht⟩ := hstep
    obtain ⟨u, hu⟩ := ih (s.step sp c) h1 (fun c hc => hl c (by simp [hc])) (v.addHistory t) ht
    exact ⟨t ++ u, by rw [← Value.addHistory_twice]; exact hu⟩

/-- C38: with calls that make no shallow copy (`Call.Clean`: every process except `Subsection`, `Resample`, `Decimate`,
`ShiftTimestamps`, the writers, `set_chan`, and `Decimator` with an increment other than 1), every object is exactly
what it was, history and data files included, after any sequence of calls. -/
theorem C38_inputs_unchanged (sp : SciPy) (s : Session W) (hs : s.Sound) (calls : List (Call W × ℕ))
    (hl : ∀ c ∈ calls, c.1.Lawful ∧ c.1.Clean) (o : Obj W) (v : Value W) (hv : s.heap.read o = .ok v)
    (f : List (String × List String)) (hf : s.heap.filesOf o.md = .ok f) :
    (s.exec sp calls).heap.read o = .ok v ∧ (s.exec sp calls).heap.filesOf o.md = .ok f := by
  induction calls generalizing s with
  | nil => exact ⟨hv, hf⟩
  | cons c calls ih =>
    obtain ⟨hl1, hl2⟩ := hl c (by simp)
    obtain ⟨h1, _, _⟩ := step_grow sp s hs c hl1
    have hstep : (s.step sp c).heap.read o = .ok v ∧ (s.step sp c).heap.filesOf o.md = .ok f := by
      obtain ⟨c, i⟩ := c
      cases hi : s.objs[i]? with
      | none =>
        have : s.step sp (c, i) = s := by simp [Session.step, hi]
        rw [this]
        exact ⟨hv, hf⟩
      | some o' =>
        have hna : ¬ c.assigns := by
          intro ha
          cases c <;> simp only [Call.assigns, Call.Clean] at ha hl2
        obtain ⟨cell, r, f', hso⟩ := hs o' (List.mem_of_getElem? hi)
        obtain ⟨res, h', heff⟩ := call_effect sp c hl1 hna hso
        have ht := heff.clean hl2
        rw [step_eq sp s c i o' hi res h' heff.run]
        refine ⟨?_, ht.filesOf hf⟩
        have := ht.read hv
        rw [this]
        simp [Value.addHistory_nil]
    exact ih (s.step sp c) h1 (fun c hc => hl c (by simp [hc])) hstep.1 hstep.2

/-- C38: what a call returns depends only on the contents of the object it is made on, not on what it shares with
others: the returned object reads as the specified value and exceptions are those specified.  With `C38_one_record`,
its history is the input's with one record. -/
theorem C38_result (sp : SciPy) (c : Call W) (hl : c.Lawful) (h : Heap) (o : Obj W) (v : Value W)
    (hv : h.read o = .ok v) (f : List (String × List String)) (hf : h.filesOf o.md = .ok f)
    (r : Except Err (Value W)) (hr : callValue sp c v = some r) :
    match r with
    | .error e => (c.run sp o h).1 = .error e
    | .ok w => ∃ o', (c.run sp o h).1 = .ok (some o') ∧ (c.run sp o h).2.read o' = .ok w := by
  have hna : ¬ c.assigns := by
    intro ha
    cases c <;> simp only [Call.assigns] at ha
    cases v <;> simp [callValue] at hr
  obtain ⟨cell, hc, hfi⟩ := filesOf_ok.1 hf
  have hpay : ∃ p, h.payload o.md = .ok p := by
    cases o <;> obtain ⟨d, hd, rfl⟩ := except_map_ok.1 hv
    · exact ⟨_, (readTime_ok.1 hd).1⟩
    · exact ⟨_, (readDec_ok.1 hd).1⟩
    · exact ⟨_, (readWin_ok.1 hd).1⟩
    · exact ⟨_, (readSpec_ok.1 hd).1⟩
  obtain ⟨p, hp⟩ := hpay
  obtain ⟨c0, r0, h1, h2, _⟩ := payload_ok.1 hp
  rw [hc] at h1; cases h1
  obtain ⟨res, h', heff⟩ := call_effect sp c hl hna (⟨hc, h2, hfi⟩ : h.Sound o.md cell r0 f)
  obtain ⟨he, ho⟩ := heff.value v hv r hr
  cases r with
  | error e => simp only [heff.run]; exact he e rfl
  | ok w => simp only [heff.run]; exact ho w rfl

/-! ## Who is affected by the other calls -/

/-- Two objects record their histories in the same place. -/
def Heap.sharesHistory (h : Heap) (a b : Obj W) : Prop :=
  ∃ ca cb, deref h.mds a.md = .ok ca ∧ deref h.mds b.md = .ok cb ∧ ca.hist = cb.hist

theorem uses_shares {h : Heap} {a b : Obj W} {c : MdCell} (hc : deref h.mds a.md = .ok c) :
    h.uses b.md c.hist ↔ h.sharesHistory a b := by
  constructor
  · rintro ⟨cb, h1, h2⟩
    exact ⟨c, cb, hc, h1, h2.symm⟩
  · rintro ⟨ca, cb, h1, h2, h3⟩
    rw [hc] at h1; cases h1
    exact ⟨cb, h2, h3.symm⟩

open Classical in
/-- C38 (what the code does instead): `Subsection`, `Resample`, `Decimate` and `ShiftTimestamps` add their record also
to the history of their input, and of every object that shares it; the result shares it too, so that later processing
of the result goes on changing the history of the input. -/
theorem C38_shallow_effect (sp : SciPy) (p : Proc) (hp : p.Sharing = true) (h : Heap) (m a : ℕ) (td out : TimeData ℚ)
    (hr : h.readTime m a = .ok td) (hrun : p.run sp td = .ok out) (f : List (String × List String))
    (hf : h.filesOf m = .ok f) :
    ∃ o' h', (Call.proc p).run sp (.time m a : Obj W) h = (.ok (some o'), h') ∧ h'.read o' = .ok (.time out) ∧
      h'.sharesHistory (.time m a) o' ∧
      h'.readTime m a = .ok { td with md := { td.md with history := td.md.history ++ [p.name] } } ∧
      ∀ (b : Obj W) (v : Value W), h.read b = .ok v →
        h'.read b = .ok (v.addHistory (if h.sharesHistory (.time m a) b then [p.name] else [])) := by
  rw [← Proc.shallow_eq] at hp
  obtain ⟨cell, hc, hfi⟩ := filesOf_ok.1 hf
  obtain ⟨c0, r0, h1, h2, _⟩ := payload_ok.1 (readTime_ok.1 hr).1
  rw [hc] at h1; cases h1
  obtain ⟨i, b, h', hx, ht, ho, c', r', hs', hsh, _⟩ := heapProc_run sp p (⟨hc, h2, hfi⟩ : h.Sound m cell r0 f) hr hrun
  rw [if_pos hp] at ht
  have hall : ∀ (b : Obj W) (v : Value W), h.read b = .ok v →
        h'.read b = .ok (v.addHistory (if h.sharesHistory (.time m a) b then [p.name] else [])) := by
    intro b v hv
    have := ht.read hv
    rw [this]
    have hiff : h.uses b.md cell.hist ↔ h.sharesHistory (.time m a) b := uses_shares hc
    by_cases hsb : h.sharesHistory (.time m a) b
    · rw [if_pos hsb, if_pos (hiff.2 hsb)]
    · rw [if_neg hsb, if_neg (fun x => hsb (hiff.1 x))]
  refine ⟨.time i b, h', ?_, by simp [Heap.read, ho, Except.map], ⟨cell, c', ht.mds _ _ hc, hs'.md, (hsh hp).1.symm⟩, ?_, hall⟩
  · show ((heapProc sp p m a >>= fun r => pure (some (Obj.time r.1 r.2))) : HeapM (Option (Obj W))) h = _
    rw [heap_bind, hx]
    rfl
  · have := hall (.time m a) (.time td) (by simp [Heap.read, hr, Except.map])
    rw [if_pos ⟨cell, cell, hc, hc, rfl⟩] at this
    obtain ⟨d, hd, he⟩ := except_map_ok.1 this
    rw [hd]
    cases he
    rfl

open Classical in
/-- C38 (what the code does instead): `Decimator` adds to the history of its input, and of all that share it, one record
for every level it computed with an increment other than 1, including one that it then dropped for being too short. -/
theorem C38_decimator_effect (sp : SciPy) (u : Bool) (k : ℕ) (p : DecParams ℚ) (h : Heap) (m a : ℕ) (td : TimeData ℚ)
    (out : DecData ℚ) (hr : h.readTime m a = .ok td) (hrun : Decimator.run sp u k p td = .ok out)
    (f : List (String × List String)) (hf : h.filesOf m = .ok f) :
    ∃ o' h', (Call.decimate u k p).run sp (.time m a : Obj W) h = (.ok (some o'), h') ∧ h'.read o' = .ok (.dec out) ∧
      ∀ (b : Obj W) (v : Value W), h.read b = .ok v →
        h'.read b = .ok (v.addHistory (if h.sharesHistory (.time m a) b then
          List.replicate (((List.range p.nLevels).take (out.md.nLevels + 1)).countP (levelChanged p))
            (if u then "Resample" else "Decimate") else [])) := by
  obtain ⟨cell, hc, hfi⟩ := filesOf_ok.1 hf
  obtain ⟨c0, r0, h1, h2, _⟩ := payload_ok.1 (readTime_ok.1 hr).1
  rw [hc] at h1; cases h1
  obtain ⟨res, h', n, hx, hn, ht, hz, he, ho⟩ := heapDecimator_run (o := (m, a)) sp u k p
    (⟨hc, h2, hfi⟩ : h.Sound m cell r0 f) hr
  obtain ⟨i, ls, rfl, hrd, _, hcnt⟩ := ho out hrun
  refine ⟨.dec i ls, h', ?_, by simp [Heap.read, hrd, Except.map], fun b v hv => ?_⟩
  · show ((heapDecimator sp u k p (m, a) >>= fun r => pure (some (Obj.dec r.1 r.2))) : HeapM (Option (Obj W))) h = _
    rw [heap_bind, hx]
    rfl
  · rw [ht.read hv, ← hcnt]
    have hiff : h.uses b.md cell.hist ↔ h.sharesHistory (.time m a) b := uses_shares hc
    by_cases hsb : h.sharesHistory (.time m a) b
    · rw [if_pos hsb, if_pos (hiff.2 hsb)]; rfl
    · rw [if_neg hsb, if_neg (fun x => hsb (hiff.1 x))]

open Classical in
/-- C38 (what the code does instead): the writers add their record to the history of the data they write, in memory,
and of all that share it. -/
theorem C38_writer_effect (sp : SciPy) (w : String) (h : Heap) (o : Obj W) (v : Value W) (hv : h.read o = .ok v)
    (f : List (String × List String)) (hf : h.filesOf o.md = .ok f) :
    ∃ h', (Call.write w).run sp o h = (.ok none, h') ∧ h'.read o = .ok (v.addHistory [w]) ∧
      ∀ (b : Obj W) (u : Value W), h.read b = .ok u →
        h'.read b = .ok (u.addHistory (if h.sharesHistory o b then [w] else [])) := by
  obtain ⟨cell, hc, hfi⟩ := filesOf_ok.1 hf
  have hpay : ∃ p, h.payload o.md = .ok p := by
    cases o <;> obtain ⟨d, hd, rfl⟩ := except_map_ok.1 hv
    · exact ⟨_, (readTime_ok.1 hd).1⟩
    · exact ⟨_, (readDec_ok.1 hd).1⟩
    · exact ⟨_, (readWin_ok.1 hd).1⟩
    · exact ⟨_, (readSpec_ok.1 hd).1⟩
  obtain ⟨p, hp⟩ := hpay
  obtain ⟨c0, r0, h1, h2, _⟩ := payload_ok.1 hp
  rw [hc] at h1; cases h1
  obtain ⟨h', hw, ht, _⟩ := heapWrite_run w (⟨hc, h2, hfi⟩ : h.Sound o.md cell r0 f)
  have hall : ∀ (b : Obj W) (u : Value W), h.read b = .ok u →
        h'.read b = .ok (u.addHistory (if h.sharesHistory o b then [w] else [])) := by
    intro b u hu
    rw [ht.read hu]
    have hiff : h.uses b.md cell.hist ↔ h.sharesHistory o b := uses_shares hc
    by_cases hsb : h.sharesHistory o b
    · rw [if_pos hsb, if_pos (hiff.2 hsb)]
    · rw [if_neg hsb, if_neg (fun x => hsb (hiff.1 x))]
  refine ⟨h', ?_, ?_, hall⟩
  · show ((heapWrite w o.md >>= fun _ => pure none) : HeapM (Option (Obj W))) h = _
    rw [heap_bind, hw]
    rfl
  · have := hall o v hv
    rwa [if_pos ⟨cell, cell, hc, hc, rfl⟩] at this

open Classical in
/-- C38 (what the code does instead): the time data writers moreover replace the data files recorded in the metadata of
the data they write, and of every object that shares its channel metadata. -/
theorem C38_time_writer_effect (sp : SciPy) (w : String) (name : String → String) (h : Heap) (m a : ℕ)
    (td : TimeData ℚ) (hr : h.readTime m a = .ok td) (f f' : List (String × List String)) (hf : h.filesOf m = .ok f)
    (hset : setDataFiles td.md.chans name f = .ok f') :
    ∃ h', (Call.writeTime w name).run sp (.time m a : Obj W) h = (.ok none, h') ∧ h'.filesOf m = .ok f' ∧
      ∀ (b : Obj W) (u : Value W), h.read b = .ok u →
        h'.read b = .ok (u.addHistory (if h.sharesHistory (.time m a) b then [w] else [])) := by
  obtain ⟨cell, hc, hfi⟩ := filesOf_ok.1 hf
  obtain ⟨hpay, _⟩ := readTime_ok.1 hr
  obtain ⟨c0, r0, h1, h2, _⟩ := payload_ok.1 hpay
  rw [hc] at h1; cases h1
  obtain ⟨_, ho⟩ := heapWriteTime_run w name (⟨hc, h2, hfi⟩ : h.Sound m cell r0 f) hpay
  obtain ⟨h', hw, ht, hs', hfiles⟩ := ho f' hset
  refine ⟨h', ?_, filesOf_ok.2 ⟨cell, ht.mds _ _ hc, hs'.files⟩, fun b u hu => ?_⟩
  · show ((heapWriteTime w name m >>= fun _ => pure none) : HeapM (Option (Obj W))) h = _
    rw [heap_bind, hw]
    rfl
  · rw [ht.read hu]
    have hiff : h.uses b.md cell.hist ↔ h.sharesHistory (.time m a) b := uses_shares hc
    by_cases hsb : h.sharesHistory (.time m a) b
    · rw [if_pos hsb, if_pos (hiff.2 hsb)]
    · rw [if_neg hsb, if_neg (fun x => hsb (hiff.1 x))]

/-- C38 (what the code does instead): `set_chan` assigns in place, so that it changes every time data object and every
decimated level that keeps the same array (level 0 of decimated data, when its increment is 1, keeps the array of the
time data). -/
theorem C38_set_chan_effect (sp : SciPy) (ch : String) (row : List ℚ) (h : Heap) (m a : ℕ) (td out : TimeData ℚ)
    (hr : h.readTime m a = .ok td) (hset : td.setChan ch row = .ok out) :
    ∃ h', (Call.setChan ch row).run sp (.time m a : Obj W) h = (.ok none, h') ∧ h'.readTime m a = .ok out ∧
      (∀ i d, h.readTime i a = .ok d → h'.readTime i a = .ok { d with data := out.data }) ∧
      (∀ i b d, b ≠ a → h.readTime i b = .ok d → h'.readTime i b = .ok d) := by
  rcases heapSetChan_run ch row h m a with ⟨e, he⟩ | ⟨td', out', h1, h2, hrun⟩
  · exfalso
    have : heapSetChan ch row m a h = (.ok (), { h with arrs := h.arrs.set a out.data }) := by
      unfold heapSetChan
      rw [heap_reading_bind, hr]
      simp only
      rw [heap_reading_bind, hset]
      rfl
    rw [this] at he
    cases he
  · rw [hr] at h1; cases h1
    rw [hset] at h2; cases h2
    have hmd : out.md = td.md := by
      unfold TimeData.setChan at hset
      obtain ⟨_, _, hset⟩ := except_bind_ok.1 hset
      by_cases hlen : (row.length : ℤ) ≠ td.md.nSamples
      · rw [if_pos hlen] at hset
        cases hset
      · rw [if_neg hlen] at hset
        cases hch : chanIndex td.md.chans ch with
        | none => simp [hch, throw, throwThe, MonadExceptOf.throw, bind, Except.bind, pure, Except.pure] at hset
        | some i =>
          simp only [hch, throw, throwThe, MonadExceptOf.throw, bind, Except.bind, pure, Except.pure] at hset
          by_cases hi : i < td.data.length
          · rw [if_pos hi] at hset; cases hset; rfl
          · rw [if_neg hi] at hset; cases hset
    have hall : ∀ i d, h.readTime i a = .ok d →
        ({ h with arrs := h.arrs.set a out.data } : Heap).readTime i a = .ok { d with data := out.data } := by
      intro i d hd
      obtain ⟨x1, x2⟩ := readTime_ok.1 hd
      refine readTime_ok.2 ⟨x1, ?_⟩
      have := deref_set a out.data x2
      simpa using this
    refine ⟨_, ?_, ?_, hall, ?_⟩
    · show ((heapSetChan ch row m a >>= fun _ => pure none) : HeapM (Option (Obj W))) h = _
      rw [heap_bind, hrun]
      rfl
    · rw [hall m td hr, ← hmd]
    · intro i b d hba hd
      obtain ⟨x1, x2⟩ := readTime_ok.1 hd
      refine readTime_ok.2 ⟨x1, ?_⟩
      have := deref_set a out.data x2
      rwa [if_neg hba] at this

/-! ## Families

Who shares a history with whom is determined by the program alone: the result of a sharing process joins the family of
its input, every other new object starts its own. -/

/-- The families after one more call; `grew` says whether it returned an object. -/
def familyStep {W : Type} (fam : List ℕ) (c : Call W × ℕ) (grew : Bool) : List ℕ :=
  if grew then fam ++ [if c.1.shares then (fam[c.2]?).getD 0 else fam.length] else fam

/-- The families along a sequence of calls. -/
def Session.families {W : Type} (sp : SciPy) : Session W → List ℕ → List (Call W × ℕ) → List ℕ
  | _, fam, [] => fam
  | s, fam, c :: rest =>
      (s.step sp c).families sp (familyStep fam c (decide (s.objs.length < (s.step sp c).objs.length))) rest

/-- Families describe sharing. -/
structure Families (s : Session W) (fam : List ℕ) : Prop where
  length : fam.length = s.objs.length
  bound : ∀ x ∈ fam, x < s.objs.length
  iff : ∀ (i j : ℕ) (a b : Obj W), s.objs[i]? = some a → s.objs[j]? = some b → (s.heap.sharesHistory a b ↔ fam[i]? = fam[j]?)

theorem sharesHistory_grow {h h' : Heap} (g : Grow h h') {a b : Obj W} (ha : ∃ c, deref h.mds a.md = .ok c)
    (hb : ∃ c, deref h.mds b.md = .ok c) : h'.sharesHistory a b ↔ h.sharesHistory a b := by
  obtain ⟨ca, ha⟩ := ha
  obtain ⟨cb, hb⟩ := hb
  constructor
  · rintro ⟨x, y, h1, h2, h3⟩
    rw [g.mds _ _ ha] at h1; cases h1
    rw [g.mds _ _ hb] at h2; cases h2
    exact ⟨ca, cb, ha, hb, h3⟩
  · rintro ⟨x, y, h1, h2, h3⟩
    exact ⟨x, y, g.mds _ _ h1, g.mds _ _ h2, h3⟩

theorem sharesHistory_symm {h : Heap} {a b : Obj W} : h.sharesHistory a b ↔ h.sharesHistory b a :=
  ⟨fun ⟨x, y, h1, h2, h3⟩ => ⟨y, x, h2, h1, h3.symm⟩, fun ⟨x, y, h1, h2, h3⟩ => ⟨y, x, h2, h1, h3.symm⟩⟩

theorem families_step (sp : SciPy) (s : Session W) (hs : s.Sound) (fam : List ℕ) (hf : Families s fam)
    (c : Call W × ℕ) (hl : c.1.Lawful) :
    Families (s.step sp c) (familyStep fam c (decide (s.objs.length < (s.step sp c).objs.length))) := by
  have hsame : ∀ h', Grow s.heap h' → (s.step sp c) = { heap := h', objs := s.objs } →
      Families (s.step sp c) (familyStep fam c (decide (s.objs.length < (s.step sp c).objs.length))) := by
    intro h' hg heq
    rw [heq]
    simp only [lt_irrefl, decide_false, familyStep, Bool.false_eq_true, if_false]
    refine ⟨hf.length, hf.bound, fun i j a b ha hb => ?_⟩
    obtain ⟨ca, _, _, hca⟩ := hs a (List.mem_of_getElem? ha)
    obtain ⟨cb, _, _, hcb⟩ := hs b (List.mem_of_getElem? hb)
    exact (sharesHistory_grow hg ⟨ca, hca.md⟩ ⟨cb, hcb.md⟩).trans (hf.iff i j a b ha hb)
  obtain ⟨c, k⟩ := c
  cases hk : s.objs[k]? with
  | none => exact hsame s.heap (Grow.refl _) (by simp [Session.step, hk])
  | some o =>
    obtain ⟨cell, r, f, hso⟩ := hs o (List.mem_of_getElem? hk)
    by_cases ha : c.assigns
    · cases c with
      | setChan ch row =>
        obtain ⟨res, h', h1, h2, h3⟩ := setChan_grow sp ch row o s.heap
        refine hsame h' h2 ?_
        rw [step_eq sp s _ k o hk res h' h1]
        rcases res with e | o'
        · simp [newObj]
        · cases o' with
          | none => simp [newObj]
          | some x => exact absurd rfl (h3 x)
      | _ => exact absurd ha (by simp [Call.assigns])
    · obtain ⟨res, h', heff⟩ := call_effect sp c hl ha hso
      obtain ⟨t, ht⟩ := heff.touch
      have hg := ht.grow
      have hstep := step_eq sp s c k o hk res h' heff.run
      by_cases hres : ∃ o', res = .ok (some o')
      · obtain ⟨o', rfl⟩ := hres
        obtain ⟨cell', r', f', hs', hsh⟩ := heff.sound o' rfl
        rw [hstep]
        have hgrew : decide (s.objs.length < (s.objs ++ newObj (.ok (some o'))).length) = true := by simp [newObj]
        simp only [hgrew, familyStep, if_true]
        -- sharing of the new object with an old one
        have hnew : ∀ (i : ℕ) (a : Obj W), s.objs[i]? = some a → (h'.sharesHistory a o' ↔
            fam[i]? = some (if c.shares then (fam[k]?).getD 0 else fam.length)) := by
          intro i a hia
          obtain ⟨ca, ra, fa, hca⟩ := hs a (List.mem_of_getElem? hia)
          have hiff : h'.sharesHistory a o' ↔ ca.hist = cell'.hist := by
            constructor
            · rintro ⟨x, y, h1, h2, h3⟩
              rw [hg.mds _ _ hca.md] at h1; cases h1
              rw [hs'.md] at h2; cases h2
              exact h3
            · intro h3
              exact ⟨ca, cell', hg.mds _ _ hca.md, hs'.md, h3⟩
          rw [hiff]
          have hil : i < fam.length := by
            rw [hf.length]; exact (List.getElem?_eq_some_iff.1 hia).1
          cases hcs : c.shares with
          | true =>
            rw [hcs, if_pos rfl] at hsh
            rw [if_pos rfl, hsh]
            have hkl : k < fam.length := by
              rw [hf.length]; exact (List.getElem?_eq_some_iff.1 hk).1
            rw [List.getElem?_eq_getElem hkl, Option.getD_some, ← List.getElem?_eq_getElem hkl, ← hf.iff i k a o hia hk]
            constructor
            · intro h3; exact ⟨ca, cell, hca.md, hso.md, h3⟩
            · rintro ⟨x, y, h1, h2, h3⟩
              rw [hca.md] at h1; cases h1
              rw [hso.md] at h2; cases h2
              exact h3
          | false =>
            rw [hcs] at hsh
            simp only [Bool.false_eq_true, if_false] at hsh ⊢
            have h1 : ca.hist < s.heap.hists.length := by
              have := deref_ok.1 hca.hist
              exact (List.getElem?_eq_some_iff.1 this).1
            constructor
            · intro h3; omega
            · intro h3
              rw [List.getElem?_eq_getElem hil] at h3
              have := hf.bound fam[i] (List.getElem_mem hil)
              rw [← hf.length] at this
              simp only [Option.some.injEq] at h3
              omega
        refine ⟨by simp [newObj, hf.length], fun x hx => ?_, fun i j a b hia hjb => ?_⟩
        · simp only [newObj, List.length_append, List.length_cons, List.length_nil]
          rcases List.mem_append.1 hx with h1 | h1
          · have := hf.bound x h1; omega
          · simp only [List.mem_singleton] at h1
            subst h1
            split
            · have hkl : k < fam.length := by
                rw [hf.length]; exact (List.getElem?_eq_some_iff.1 hk).1
              rw [List.getElem?_eq_getElem hkl, Option.getD_some]
              have := hf.bound fam[k] (List.getElem_mem hkl)
              omega
            · rw [hf.length]; omega
        · simp only [newObj] at hia hjb
          have hcase : ∀ (i : ℕ) (a : Obj W), (s.objs ++ [o'])[i]? = some a →
              (i < s.objs.length ∧ s.objs[i]? = some a) ∨ (i = s.objs.length ∧ a = o') := by
            intro i a hia
            by_cases hlt : i < s.objs.length
            · rw [List.getElem?_append_left hlt] at hia; exact Or.inl ⟨hlt, hia⟩
            · have hb := (List.getElem?_eq_some_iff.1 hia).1
              simp only [List.length_append, List.length_cons, List.length_nil] at hb
              have heq : i = s.objs.length := by omega
              subst heq
              simp at hia
              exact Or.inr ⟨rfl, hia.symm⟩
          rcases hcase i a hia with ⟨hil, hia'⟩ | ⟨rfl, rfl⟩ <;> rcases hcase j b hjb with ⟨hjl, hjb'⟩ | ⟨rfl, rfl⟩
          · rw [List.getElem?_append_left (by rw [hf.length]; exact hil),
              List.getElem?_append_left (by rw [hf.length]; exact hjl)]
            obtain ⟨ca, _, _, hca⟩ := hs a (List.mem_of_getElem? hia')
            obtain ⟨cb, _, _, hcb⟩ := hs b (List.mem_of_getElem? hjb')
            exact (sharesHistory_grow hg ⟨ca, hca.md⟩ ⟨cb, hcb.md⟩).trans (hf.iff i j a b hia' hjb')
          · rw [List.getElem?_append_left (by rw [hf.length]; exact hil), hnew i a hia', ← hf.length]
            simp
          · rw [List.getElem?_append_left (i := j) (by rw [hf.length]; exact hjl), sharesHistory_symm, hnew j b hjb',
              ← hf.length, List.getElem?_concat_length]
            exact eq_comm
          · simp only [iff_true]
            exact ⟨cell', cell', hs'.md, hs'.md, rfl⟩
      · refine hsame h' hg ?_
        rw [hstep]
        rcases res with e | o'
        · simp [newObj]
        · cases o' with
          | none => simp [newObj]
          | some x => exact absurd ⟨x, rfl⟩ hres

/-- C38: after any sequence of calls, two objects share a history exactly when they are in one family, that is when one
comes from the other, or both from a third, by sharing processes only (`Subsection`, `Resample`, `Decimate`,
`ShiftTimestamps`).  So the objects that the effects above reach can be read off the program. -/
theorem C38_families (sp : SciPy) (s : Session W) (hs : s.Sound)
    (hsep : ∀ (i j : ℕ) (a b : Obj W), s.objs[i]? = some a → s.objs[j]? = some b → s.heap.sharesHistory a b → i = j)
    (calls : List (Call W × ℕ)) (hl : ∀ c ∈ calls, c.1.Lawful) (i j : ℕ) (a b : Obj W)
    (ha : (s.exec sp calls).objs[i]? = some a) (hb : (s.exec sp calls).objs[j]? = some b) :
    (s.exec sp calls).heap.sharesHistory a b ↔
      (s.families sp (List.range s.objs.length) calls)[i]? = (s.families sp (List.range s.objs.length) calls)[j]? := by
  have hmain : ∀ (calls : List (Call W × ℕ)) (s : Session W) (fam : List ℕ), s.Sound → (∀ c ∈ calls, c.1.Lawful) →
      Families s fam → Families (s.exec sp calls) (s.families sp fam calls) := by
    intro calls
    induction calls with
    | nil => intro s fam _ _ h; exact h
    | cons c calls ih =>
      intro s fam hs hl hf
      obtain ⟨h1, _, _⟩ := step_grow sp s hs c (hl c (by simp))
      exact ih (s.step sp c) _ h1 (fun c hc => hl c (by simp [hc])) (families_step sp s hs fam hf c (hl c (by simp)))
  have hinit : Families s (List.range s.objs.length) := by
    refine ⟨by simp, fun x hx => List.mem_range.1 hx, fun i j a b ha hb => ?_⟩
    have hi := (List.getElem?_eq_some_iff.1 ha).1
    have hj := (List.getElem?_eq_some_iff.1 hb).1
    rw [List.getElem?_range hi, List.getElem?_range hj, Option.some.injEq]
    constructor
    · exact hsep i j a b ha hb
    · rintro rfl
      rw [ha] at hb; cases hb
      obtain ⟨ca, _, _, hca⟩ := hs a (List.mem_of_getElem? ha)
      exact ⟨ca, ca, hca.md, hca.md, rfl⟩
  exact (hmain calls s _ hs hl hinit).iff i j a b ha hb

/-! ## A concrete session -/

/-- A time recording of two channels, five samples at 2 Hz, as an object of a session. -/
def demoHeap : Heap where
  mds := [⟨.time ⟨2, ["Ex", "Hy"], 5, 100, 102, []⟩, 0, 0⟩]
  hists := [["TimeReaderNumpy"]]
  files := [[("Ex", ["data.npy"]), ("Hy", ["data.npy"])]]
  arrs := [[[1, 2, 3, 4, 5], [5, 4, 3, 2, 1]]]

def demoSession : Session ℚ := ⟨demoHeap, [.time 0 0]⟩

theorem demoSession_sound : demoSession.Sound := by
  intro o ho
  have : o = .time 0 0 := by simpa [demoSession] using ho
  subst this
  exact ⟨_, _, _, rfl, rfl, rfl⟩

/-- Clean calls: the history of the recording stays as it is, the results have one record more each. -/
example : (demoSession.exec demoSciPy [(.proc .removeMean, 0), (.copy, 1), (.proc (.add (.scalar 1)), 2)]).heap.hists =
    [["TimeReaderNumpy"], ["TimeReaderNumpy", "RemoveMean"], ["TimeReaderNumpy", "RemoveMean"],
      ["TimeReaderNumpy", "RemoveMean", "Add"]] := by decide +kernel

example : ∀ c ∈ ([(.proc .removeMean, 0), (.copy, 1), (.proc (.add (.scalar 1)), 2)] : List (Call ℚ × ℕ)),
    c.1.Lawful ∧ c.1.Clean := by
  simp [Call.Lawful, Call.Clean, Proc.Sharing]

/-- Sharing calls: two processes on the recording and one on a result all write into the one history. -/
example : (demoSession.exec demoSciPy [(.proc (.decimate 8 2), 0), (.proc (.shift 1), 0),
      (.proc (.decimate 8 2), 1)]).heap.hists = [["TimeReaderNumpy", "Decimate", "Decimate"]] ∧
    (demoSession.exec demoSciPy [(.proc (.decimate 8 2), 0), (.proc (.decimate 8 2), 1)]).objs.length = 3 ∧
    (demoSession.exec demoSciPy [(.proc (.decimate 8 2), 0), (.proc (.decimate 8 2), 1)]).heap.payload 0 =
      .ok (.time ⟨2, ["Ex", "Hy"], 5, 100, 102, ["TimeReaderNumpy", "Decimate", "Decimate"]⟩) := by
  decide +kernel

/-- The families of that program. -/
example : demoSession.families demoSciPy [0] [(.proc (.decimate 8 2), 0), (.copy, 0), (.proc (.decimate 8 2), 1),
    (.proc .removeMean, 1)] = [0, 0, 2, 0, 4] := by decide +kernel

/-- Writing time data changes the data files that the recording in memory claims to come from. -/
example : (demoSession.exec demoSciPy [(.writeTime "TimeWriterAscii" (fun c => c.toLower ++ ".ascii"), 0)]).heap.files =
    [[("Ex", ["ex.ascii"]), ("Hy", ["hy.ascii"])]] := by decide +kernel

end Resistics
