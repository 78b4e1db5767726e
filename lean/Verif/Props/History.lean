import Verif.Lemmas.Heap
import Verif.Props.Windower

/-!
# C38: histories are append-only; who changes its input
-/

namespace Resistics

variable {W : Type}

/-! ## What the processes do to metadata -/

/-- Every time data process appends exactly one record, named after it. -/
theorem Proc.run_history (sp : SciPy) (p : Proc) (td out : TimeData ℚ) (h : p.run sp td = .ok out) :
    out.md.history = td.md.history ++ [p.name] := by
  have adj : ∀ {md md' : TimeMeta} {fs first : ℚ} {n : ℤ}, adjustTimeMetadata md fs first n = .ok md' →
      md'.history = md.history := by
    intro md md' fs first n hh
    unfold adjustTimeMetadata at hh
    obtain ⟨r, _, hh⟩ := except_bind_ok.1 hh
    cases hh
    rfl
  cases p with
  | subsection f t =>
    simp only [Proc.run, Resistics.subsection] at h
    obtain ⟨_, _, h⟩ := except_bind_ok.1 h
    obtain ⟨_, _, h⟩ := except_bind_ok.1 h
    obtain ⟨md, hmd, h⟩ := except_bind_ok.1 h
    cases h
    simp [newTimeData, adj hmd, Proc.name]
  | interpolateNans => simp only [Proc.run] at h; cases h; rfl
  | removeMean => simp only [Proc.run] at h; cases h; rfl
  | add p => simp only [Proc.run] at h; cases h; rfl
  | multiply p => simp only [Proc.run] at h; cases h; rfl
  | lowPass c o =>
    simp only [Proc.run, filterProc] at h
    obtain ⟨_, _, h⟩ := except_bind_ok.1 h
    obtain ⟨_, _, h⟩ := except_bind_ok.1 h
    cases h; rfl
  | highPass c o =>
    simp only [Proc.run, filterProc] at h
    obtain ⟨_, _, h⟩ := except_bind_ok.1 h
    obtain ⟨_, _, h⟩ := except_bind_ok.1 h
    cases h; rfl
  | bandPass l u o =>
    simp only [Proc.run, filterProc] at h
    obtain ⟨_, _, h⟩ := except_bind_ok.1 h
    obtain ⟨_, _, h⟩ := except_bind_ok.1 h
    cases h; rfl
  | notch f b o =>
    simp only [Proc.run, filterProc] at h
    obtain ⟨_, _, h⟩ := except_bind_ok.1 h
    obtain ⟨_, _, h⟩ := except_bind_ok.1 h
    cases h; rfl
  | resample f =>
    simp only [Proc.run, Resistics.resample] at h
    split at h
    · cases h
    · split at h
      · cases h
      · obtain ⟨md, hmd, h⟩ := except_bind_ok.1 h
        cases h
        simp [newTimeData, adj hmd, Proc.name]
  | decimate m f =>
    simp only [Proc.run, decimateProc] at h
    obtain ⟨_, _, h⟩ := except_bind_ok.1 h
    split at h
    · cases h
    · obtain ⟨md, hmd, h⟩ := except_bind_ok.1 h
      cases h
      simp [newTimeData, adj hmd, Proc.name]
  | shift s =>
    simp only [Proc.run, shiftTimestamps] at h
    split at h
    · cases h
    · split at h
      · cases h
      · split at h
        · cases h
        · obtain ⟨_, _, h⟩ := except_bind_ok.1 h
          obtain ⟨md, hmd, h⟩ := except_bind_ok.1 h
          cases h
          simp [newTimeData, adj hmd, Proc.name]
  | apply j f =>
    simp only [Proc.run, applyFunction] at h
    obtain ⟨_, _, h⟩ := except_bind_ok.1 h
    cases h; rfl

/-- The processes that do not take a shallow copy leave all other metadata alone. -/
theorem Proc.run_deep (sp : SciPy) (p : Proc) (hp : p.shallow = false) (td out : TimeData ℚ)
    (h : p.run sp td = .ok out) : out.md = { td.md with history := td.md.history ++ [p.name] } := by
  cases p with
  | subsection f t => simp [Proc.shallow] at hp
  | interpolateNans => simp only [Proc.run] at h; cases h; rfl
  | removeMean => simp only [Proc.run] at h; cases h; rfl
  | add p => simp only [Proc.run] at h; cases h; rfl
  | multiply p => simp only [Proc.run] at h; cases h; rfl
  | lowPass c o =>
    simp only [Proc.run, filterProc] at h
    obtain ⟨_, _, h⟩ := except_bind_ok.1 h
    obtain ⟨_, _, h⟩ := except_bind_ok.1 h
    cases h; rfl
  | highPass c o =>
    simp only [Proc.run, filterProc] at h
    obtain ⟨_, _, h⟩ := except_bind_ok.1 h
    obtain ⟨_, _, h⟩ := except_bind_ok.1 h
    cases h; rfl
  | bandPass l u o =>
    simp only [Proc.run, filterProc] at h
    obtain ⟨_, _, h⟩ := except_bind_ok.1 h
    obtain ⟨_, _, h⟩ := except_bind_ok.1 h
    cases h; rfl
  | notch f b o =>
    simp only [Proc.run, filterProc] at h
    obtain ⟨_, _, h⟩ := except_bind_ok.1 h
    obtain ⟨_, _, h⟩ := except_bind_ok.1 h
    cases h; rfl
  | resample f => simp [Proc.shallow] at hp
  | decimate m f => simp [Proc.shallow] at hp
  | shift s => simp [Proc.shallow] at hp
  | apply j f =>
    simp only [Proc.run, applyFunction] at h
    obtain ⟨_, _, h⟩ := except_bind_ok.1 h
    cases h; rfl

/-! ## Single steps -/

theorem deepCopy_run {h : Heap} {md : ℕ} {c : MdCell} {r : List String} {f : List (String × List String)}
    (hc : deref h.mds md = .ok c) (hr : deref h.hists c.hist = .ok r) (hf : deref h.files c.files = .ok f) :
    deepCopy md h = (.ok h.mds.length, h.alloc c.payload r f) := by
  unfold deepCopy
  rw [heap_reading_bind, hc]
  simp only
  rw [heap_reading_bind, hr]
  simp only
  rw [heap_reading_bind, filesOf_ok.2 ⟨c, hc, hf⟩]
  rfl

theorem shallowCopy_run {h : Heap} {md : ℕ} {c : MdCell} (hc : deref h.mds md = .ok c) :
    shallowCopy md h = (.ok h.mds.length, { h with mds := h.mds ++ [c] }) := by
  unfold shallowCopy
  rw [hc]

/-- All references of the metadata object lead somewhere. -/
structure Heap.Sound (h : Heap) (md : ℕ) (c : MdCell) (r : List String) (f : List (String × List String)) : Prop where
  md : deref h.mds md = .ok c
  hist : deref h.hists c.hist = .ok r
  files : deref h.files c.files = .ok f

/-- A time data process that succeeds: the new object, and what happened to the old ones. -/
theorem heapProc_run (sp : SciPy) (p : Proc) {h : Heap} {md arr : ℕ} {c : MdCell} {r : List String}
    {f : List (String × List String)} (hs : h.Sound md c r f) {td out : TimeData ℚ} (hr : h.readTime md arr = .ok td)
    (hp : p.run sp td = .ok out) :
    ∃ i a h', heapProc sp p md arr h = (.ok (i, a), h') ∧ Touch c.hist (if p.shallow then [p.name] else []) h h' ∧
      h'.readTime i a = .ok out ∧
      ∃ c' r', h'.Sound i c' r' f ∧ (p.shallow = true → c'.hist = c.hist ∧ c'.files = c.files) ∧
        (p.shallow = false → h.hists.length ≤ c'.hist) := by
  have hrun : heapProc sp p md arr h = ((do
      let i ← if p.shallow then shallowCopy md else deepCopy md
      if p.shallow then setPayload i (.time out.md)
      addRecord i p.name
      let a ← newArr out.data
      return (i, a) : HeapM (ℕ × ℕ)) h) := by
    unfold heapProc
    rw [heap_reading_bind, hr]
    simp only
    rw [heap_reading_bind, hp]
  obtain ⟨hpay, harr⟩ := readTime_ok.1 hr
  obtain ⟨c0, r0, h1, h2, h3⟩ := payload_ok.1 hpay
  rw [hs.md] at h1; cases h1
  rw [hs.hist] at h2; cases h2
  have hhist : r = td.md.history := by
    have := congrArg Payload.history h3
    rw [payload_withHistory_history] at this
    exact this.symm
  cases hsh : p.shallow with
  | true =>
    simp only [hsh, if_true] at hrun
    rw [heap_bind, shallowCopy_run hs.md] at hrun
    simp only at hrun
    rw [heap_bind] at hrun
    have hset : (h.mds ++ [c]).modify h.mds.length (fun c => { c with payload := .time out.md }) =
        h.mds ++ [{ c with payload := .time out.md }] := by
      rw [List.modify_eq_set_getElem?]; simp
    have hset' : setPayload h.mds.length (.time out.md) { h with mds := h.mds ++ [c] } =
        (.ok (), { h with mds := h.mds ++ [{ c with payload := .time out.md }] }) := by
      simp only [setPayload, hset]
    rw [hset'] at hrun
    simp only at hrun
    rw [heap_bind] at hrun
    have hadd : addRecord h.mds.length p.name { h with mds := h.mds ++ [{ c with payload := .time out.md }] } =
        (.ok (), { h with mds := h.mds ++ [{ c with payload := .time out.md }],
                          hists := h.hists.modify c.hist fun r => r ++ [p.name] }) := by
      unfold addRecord
      rw [deref_last]
    rw [hadd] at hrun
    refine ⟨_, _, _, hrun, ?_, ?_, ⟨{ c with payload := .time out.md }, r ++ [p.name], ⟨?_, ?_, hs.files⟩, ?_, ?_⟩⟩
    · exact ((touch_md h _ c.hist).trans (touch_record _ c.hist p.name)).trans (touch_arr _ out.data c.hist)
    · refine readTime_ok.2 ⟨payload_ok.2 ⟨_, r ++ [p.name], deref_last _ _, ?_, ?_⟩, deref_last _ _⟩
      · have := deref_modify (fun r => r ++ [p.name]) c.hist hs.hist
        simpa using this
      · rw [hhist, ← Proc.run_history sp p td out hp]; rfl
    · exact deref_last _ _
    · have := deref_modify (fun r => r ++ [p.name]) c.hist hs.hist
      simpa using this
    · intro _; exact ⟨rfl, rfl⟩
    · intro hx; cases hx
  | false =>
    simp only [hsh, Bool.false_eq_true, if_false] at hrun
    rw [heap_bind, deepCopy_run hs.md hs.hist hs.files] at hrun
    simp only at hrun
    rw [heap_bind, addRecord_new] at hrun
    refine ⟨_, _, _, hrun, ?_, ?_, ⟨⟨c.payload, h.hists.length, h.files.length⟩, r ++ [p.name], ⟨?_, ?_, ?_⟩, ?_, ?_⟩⟩
    · exact (touch_alloc h c.payload (r ++ [p.name]) f c.hist).trans (touch_arr _ out.data c.hist)
    · refine readTime_ok.2 ⟨payload_ok.2 ⟨_, r ++ [p.name], deref_last _ _, deref_last _ _, ?_⟩, deref_last _ _⟩
      rw [Proc.run_deep sp p hsh td out hp, ← hhist]
      have : c.payload.withHistory (r ++ [p.name]) = (Payload.time td.md).withHistory (r ++ [p.name]) := by
        rw [h3, payload_withHistory_twice]
      rw [this]; rfl
    · exact deref_last _ _
    · exact deref_last _ _
    · exact deref_last _ _
    · intro hx; cases hx
    · intro _
      exact le_refl _

/-- A time data process that raises changes nothing. -/
theorem heapProc_error (sp : SciPy) (p : Proc) {h : Heap} {md arr : ℕ} {td : TimeData ℚ} {e : Err}
    (hr : h.readTime md arr = .ok td) (hp : p.run sp td = .error e) : heapProc sp p md arr h = (.error e, h) := by
  unfold heapProc
  rw [heap_reading_bind, hr]
  simp only
  rw [heap_reading_bind, hp]

/-! ## Decimation -/

/-- The values of a level: the pure step of the decimator. -/
def decStep (sp : SciPy) (u : Bool) (k : ℕ) : TimeData ℚ → ℕ → Except Err (TimeData ℚ) :=
  if u then decimatorResample sp else decimatorDecimate sp k

theorem levelProc_shallow (u : Bool) (k : ℕ) (fs : ℚ) (n : ℕ) : (levelProc u k fs n).shallow = true := by
  cases u <;> rfl

/-- The record that the process of a level leaves. -/
def levelRecord (u : Bool) : String := if u then "Resample" else "Decimate"

theorem levelProc_name (u : Bool) (k : ℕ) (fs : ℚ) (n : ℕ) : (levelProc u k fs n).name = levelRecord u := by
  cases u <;> rfl

theorem decStep_proc (sp : SciPy) (u : Bool) (k : ℕ) (td : TimeData ℚ) (n : ℕ) (h1 : n ≠ 1) (h0 : n ≠ 0) :
    decStep sp u k td n = (levelProc u k td.md.fs n).run sp td := by
  cases u
  · simp [decStep, decimatorDecimate, levelProc, h1, h0, Proc.run]
  · simp [decStep, decimatorResample, levelProc, h1, h0, Proc.run]

/-- One level of the decimator on the heap. -/
theorem heapLevel_run (sp : SciPy) (u : Bool) (k : ℕ) {h : Heap} {o : ℕ × ℕ} {c : MdCell} {r : List String}
    {f : List (String × List String)} (hs : h.Sound o.1 c r f) {td : TimeData ℚ} (hr : h.readTime o.1 o.2 = .ok td)
    (n : ℕ) :
    (∀ e, decStep sp u k td n = .error e → heapLevel sp u k o n h = (.error e, h)) ∧
    (∀ out, decStep sp u k td n = .ok out → ∃ o' h' c' r', heapLevel sp u k o n h = (.ok o', h') ∧
      Touch c.hist (if n = 1 then [] else [levelRecord u]) h h' ∧ h'.readTime o'.1 o'.2 = .ok out ∧
      h'.Sound o'.1 c' r' f ∧ c'.hist = c.hist) := by
  by_cases h1 : n = 1
  · subst h1
    have hstep : decStep sp u k td 1 = .ok td := by
      cases u <;> simp [decStep, decimatorDecimate, decimatorResample]
    have hrun : heapLevel sp u k o 1 h = (.ok o, h) := rfl
    rw [hstep]
    refine ⟨fun e he => (by cases he), fun out ho => ?_⟩
    cases ho
    exact ⟨o, h, c, r, hrun, by simpa using Touch.refl c.hist h, hr, hs, rfl⟩
  · by_cases h0 : n = 0
    · subst h0
      have hrun : heapLevel sp u k o 0 h = (.error (if u then .zeroDiv else .value), h) := by
        cases u <;> rfl
      have hstep : decStep sp u k td 0 = .error (if u then .zeroDiv else .value) := by
        cases u <;> simp [decStep, decimatorDecimate, decimatorResample]
      rw [hstep]
      refine ⟨fun e he => by cases he; exact hrun, fun out ho => by cases ho⟩
    · rw [decStep_proc sp u k td n h1 h0]
      have hrun : heapLevel sp u k o n h = heapProc sp (levelProc u k td.md.fs n) o.1 o.2 h := by
        unfold heapLevel
        simp only [h1, h0, if_false]
        rw [heap_reading_bind, hr]
      refine ⟨fun e he => ?_, fun out ho => ?_⟩
      · rw [hrun]
        exact heapProc_error sp _ hr he
      · obtain ⟨i, a, h', hx, ht, hread, c', r', hs', hsh, _⟩ := heapProc_run sp _ hs hr ho
        rw [levelProc_shallow, if_pos rfl, levelProc_name] at ht
        exact ⟨(i, a), h', c', r', hrun.trans hx, by rw [if_neg h1]; exact ht, hread, hs',
          (hsh (levelProc_shallow _ _ _ _)).1⟩

/-- Whether the level is not taken over unchanged. -/
def levelChanged (p : DecParams ℚ) (ilevel : ℕ) : Bool :=
  match pyIndex p.decIncrements (ilevel : ℤ) with
  | .ok f => f != 1
  | .error _ => false

/-- The loop of the decimator on the heap computes the values of the pure loop, and appends records only to the
history that the input uses, one for each level that is not taken over unchanged. -/
theorem heapDecLoop_run (sp : SciPy) (u : Bool) (k : ℕ) (p : DecParams ℚ) (ls : List ℕ) :
    ∀ {h : Heap} {o : ℕ × ℕ} {c : MdCell} {r : List String} {f : List (String × List String)}
      (_ : h.Sound o.1 c r f) {td : TimeData ℚ} (_ : h.readTime o.1 o.2 = .ok td) (acc : HeapDecAcc) (acc' : DecAcc)
      (_ : acc.levels = acc'.levels)
      (_ : (acc.data.mapM fun q => (deref h.arrs q.2).map fun a => (q.1, a)) = .ok acc'.data),
    ∃ res h' n, heapDecLoop sp u k p ls o acc h = (res, h') ∧ n ≤ ls.length ∧
      Touch c.hist (List.replicate n (levelRecord u)) h h' ∧
      ((∀ i ∈ ls, pyIndex p.decIncrements (i : ℤ) = .ok 1) → n = 0) ∧
      (∀ e, decimatorLoop (decStep sp u k) p ls td acc' = .error e → res = .error e) ∧
      (∀ out, decimatorLoop (decStep sp u k) p ls td acc' = .ok out → ∃ o', res = .ok o' ∧ o'.levels = out.levels ∧
        (o'.data.mapM fun q => (deref h'.arrs q.2).map fun a => (q.1, a)) = .ok out.data ∧
        acc'.levels.length ≤ out.levels.length ∧
        n = (ls.take (out.levels.length - acc'.levels.length + 1)).countP (levelChanged p)) := by
  induction ls with
  | nil =>
    intro h o c r f hs td hr acc acc' hl hd
    refine ⟨.ok acc, h, 0, rfl, le_refl _, Touch.refl _ _, fun _ => rfl, fun e he => ?_, fun out ho => ?_⟩
    · simp [decimatorLoop] at he
    · simp only [decimatorLoop, Except.ok.injEq] at ho
      subst ho
      exact ⟨acc, rfl, hl, hd, le_refl _, by simp⟩
  | cons a ls ih =>
    intro h o c r f hs td hr acc acc' hl hd
    simp only [decimatorLoop]
    have hrun0 : heapDecLoop sp u k p (a :: ls) o acc h =
        match pyIndex p.decIncrements (a : ℤ) with
        | .error e => (.error e, h)
        | .ok factor => ((do
            let new ← heapLevel sp u k o factor
            let td ← reading fun h => h.readTime new.1 new.2
            if td.md.nSamples < p.minSamples then pure acc
            else do
              let _ ← reading fun _ => pyIndex p.decFs (a : ℤ)
              heapDecLoop sp u k p ls new
                { data := acc.data ++ [(a, new.2)], levels := acc.levels ++ [levelMetaOf td.md] } : HeapM _) h) := by
      rw [heapDecLoop, heap_reading_bind]
      cases pyIndex p.decIncrements (a : ℤ) <;> rfl
    cases hf : pyIndex p.decIncrements (a : ℤ) with
    | error e =>
      rw [hf] at hrun0
      refine ⟨_, h, 0, hrun0, Nat.zero_le _, Touch.refl _ _, fun _ => rfl, fun e' he => ?_, fun out ho => ?_⟩
      · simp only [bind, Except.bind, Except.error.injEq] at he
        rw [he]
      · simp [bind, Except.bind] at ho
    | ok factor =>
      rw [hf] at hrun0
      simp only [bind, Except.bind]
      obtain ⟨hle, hlo⟩ := heapLevel_run sp u k hs hr factor
      cases hst : decStep sp u k td factor with
      | error e =>
        have hrun1 := hle e hst
        refine ⟨.error e, h, 0, ?_, Nat.zero_le _, Touch.refl _ _, fun _ => rfl, fun e' he => ?_, fun out ho => ?_⟩
        · rw [hrun0]
          show (heapLevel sp u k o factor >>= _) h = _
          rw [heap_bind, hrun1]
        · simpa using he
        · simp at ho
      | ok new =>
        obtain ⟨o', h', c', r', hrun1, ht, hread, hs', hhist⟩ := hlo new hst
        have hrun2 : heapDecLoop sp u k p (a :: ls) o acc h =
            (if new.md.nSamples < p.minSamples then (.ok acc, h')
            else match pyIndex p.decFs (a : ℤ) with
              | .error e => (.error e, h')
              | .ok _ => heapDecLoop sp u k p ls o'
                { data := acc.data ++ [(a, o'.2)], levels := acc.levels ++ [levelMetaOf new.md] } h') := by
          rw [hrun0]
          show (heapLevel sp u k o factor >>= _) h = _
          rw [heap_bind, hrun1]
          simp only
          rw [heap_bind, heap_reading, hread]
          simp only
          split
          · rfl
          · rw [heap_bind, heap_reading]
            cases pyIndex p.decFs (a : ℤ) <;> rfl
        have hd' : (acc.data.mapM fun q => (deref h'.arrs q.2).map fun a => (q.1, a)) = .ok acc'.data := by
          refine mapM_mono ?_ hd
          intro q b hq
          obtain ⟨x, hx, rfl⟩ := except_map_ok.1 hq
          exact except_map_ok.2 ⟨x, ht.arrs _ _ hx, rfl⟩
        have hone : ((∀ i ∈ a :: ls, pyIndex p.decIncrements (i : ℤ) = .ok 1) → factor = 1) := by
          intro hall
          have := hall a (by simp)
          rw [hf] at this
          cases this; rfl
        -- records so far
        have hbase : ∃ n, n ≤ 1 ∧ Touch c.hist (List.replicate n (levelRecord u)) h h' ∧ (factor = 1 → n = 0) ∧
            n = [a].countP (levelChanged p) := by
          by_cases h1 : factor = 1
          · exact ⟨0, by omega, by simpa [h1] using ht, fun _ => rfl, by simp [levelChanged, hf, h1]⟩
          · exact ⟨1, le_refl _, by simpa [h1] using ht, fun x => absurd x h1, by simp [levelChanged, hf, h1]⟩
        obtain ⟨n0, hn0, ht0, hz0, hc0⟩ := hbase
        by_cases hmin : new.md.nSamples < p.minSamples
        · rw [if_pos hmin] at hrun2
          refine ⟨.ok acc, h', n0, hrun2, le_trans hn0 (by simp), ht0, fun hall => hz0 (hone hall), fun e he => ?_,
            fun out ho => ?_⟩
          · simp [hmin] at he
          · simp only [hmin, if_true, Except.ok.injEq] at ho
            subst ho
            exact ⟨acc, rfl, hl, hd', le_refl _, by simpa using hc0⟩
        · rw [if_neg hmin] at hrun2
          cases hfs : pyIndex p.decFs (a : ℤ) with
          | error e =>
            rw [hfs] at hrun2
            refine ⟨.error e, h', n0, hrun2, le_trans hn0 (by simp), ht0, fun hall => hz0 (hone hall), fun e' he => ?_,
              fun out ho => ?_⟩
            · simpa [hmin, hfs] using he
            · simp [hmin, hfs] at ho
          | ok x =>
            rw [hfs] at hrun2
            simp only at hrun2
            obtain ⟨_, harr⟩ := readTime_ok.1 hread
            have hd2 : ((acc.data ++ [(a, o'.2)]).mapM fun q => (deref h'.arrs q.2).map fun a => (q.1, a)) =
                .ok (acc'.data ++ [(a, new.data)]) := by
              rw [List.mapM_append, hd']
              simp [harr, bind, Except.bind, pure, Except.pure, Except.map]
            obtain ⟨res, h2, n1, hrun3, hn1, ht1, hz1, he1, ho1⟩ := ih hs' hread
              { data := acc.data ++ [(a, o'.2)], levels := acc.levels ++ [levelMetaOf new.md] }
              { data := acc'.data ++ [(a, new.data)], levels := acc'.levels ++ [levelMetaOf new.md] }
              (by simp [hl]) hd2
            rw [hhist] at ht1
            refine ⟨res, h2, n0 + n1, hrun2.trans hrun3, by simp; omega, ?_, fun hall => ?_, fun e he => ?_,
              fun out ho => ?_⟩
            · rw [List.replicate_add]
              exact ht0.trans ht1
            · rw [hz0 (hone hall), hz1 (fun i hi => hall i (by simp [hi]))]
            · refine he1 e ?_
              simpa [hmin, hfs] using he
            · obtain ⟨o2, x1, x2, x3, x4, x5⟩ := ho1 out (by simpa [hmin, hfs] using ho)
              simp only [List.length_append, List.length_cons, List.length_nil] at x4 x5
              refine ⟨o2, x1, x2, x3, by omega, ?_⟩
              have hlen : out.levels.length - acc'.levels.length + 1 =
                  (out.levels.length - (acc'.levels.length + (0 + 1)) + 1) + 1 := by omega
              rw [hlen, List.take_succ_cons, List.countP_cons, ← x5, hc0]
              simp only [List.countP_cons, List.countP_nil]
              omega

/-! ## Derived data -/

theorem newMd_record {β : Type} (p : Payload) (r : List String) (f : List (String × List String)) (name : String)
    (g : ℕ → HeapM β) (h : Heap) :
    (do let i ← newMd p r f
        addRecord i name
        g i : HeapM β) h = g h.mds.length (h.allocRecord p r f name) := by
  rw [heap_bind]
  show (addRecord h.mds.length name >>= fun _ => g h.mds.length) (h.alloc p r f) = _
  rw [heap_bind, addRecord_new]

/-- The metadata object that a derived object gets. -/
theorem Sound_alloc (h : Heap) (p : Payload) (r : List String) (f : List (String × List String)) (name : String) :
    (h.allocRecord p r f name).Sound h.mds.length ⟨p, h.hists.length, h.files.length⟩ (r ++ [name]) f :=
  ⟨deref_last _ _, deref_last _ _, deref_last _ _⟩

theorem windowLoop_views (checked : Bool) (sizes : ℕ → LevelMeta → Except Err (ℤ × ℤ)) (ref : DateTime) (minN : ℤ)
    (dec : DecData ℚ) (ls : List ℕ) (acc out : WinAcc ℚ) (h : windowLoop checked sizes ref minN dec ls acc = .ok out) :
    ∀ q ∈ out.data, q ∈ acc.data ∨
      ∃ raw, dec.getLevel (q.1 : ℤ) = .ok raw ∧ levelView sizes ref dec.md q.1 raw = .ok q.2 := by
  induction ls generalizing acc with
  | nil => simp only [windowLoop, Except.ok.injEq] at h; subst h; intro q hq; exact Or.inl hq
  | cons a ls ih =>
    rw [windowLoop] at h
    obtain ⟨lm, hlm, h⟩ := except_bind_ok.1 h
    obtain ⟨wo, hwo, h⟩ := except_bind_ok.1 h
    obtain ⟨table, htab, h⟩ := except_bind_ok.1 h
    split at h
    · cases h; intro q hq; exact Or.inl hq
    · obtain ⟨raw, hraw, h⟩ := except_bind_ok.1 h
      obtain ⟨arr, harr, h⟩ := except_bind_ok.1 h
      obtain ⟨_, _, h⟩ := except_bind_ok.1 h
      obtain ⟨wlm, hwlm, h⟩ := except_bind_ok.1 h
      intro q hq
      rcases ih _ h q hq with hin | hin
      · rcases List.mem_append.1 hin with hin | hin
        · exact Or.inl hin
        · right
          rw [List.mem_singleton] at hin
          subst hin
          refine ⟨raw, hraw, ?_⟩
          unfold levelView
          simp only [hlm, hwo, htab, bind, Except.bind]
          exact harr
      · exact Or.inr hin

/-- Looking up a level among the references is looking it up among the arrays. -/
theorem lookup_refs {h : Heap} (ls : List (ℕ × ℕ)) (data : List (ℕ × List (List ℚ)))
    (hd : (ls.mapM fun q => (deref h.arrs q.2).map fun a => (q.1, a)) = .ok data) (i : ℕ) (raw : List (List ℚ))
    (hl : data.lookup i = some raw) : ∃ b, ls.lookup i = some b ∧ deref h.arrs b = .ok raw := by
  induction ls generalizing data with
  | nil =>
    simp only [List.mapM_nil, pure, Except.pure, Except.ok.injEq] at hd
    subst hd
    simp at hl
  | cons q ls ih =>
    rw [List.mapM_cons] at hd
    obtain ⟨x, hx, hd⟩ := except_bind_ok.1 hd
    obtain ⟨xs, hxs, hd⟩ := except_bind_ok.1 hd
    obtain ⟨a, ha, rfl⟩ := except_map_ok.1 hx
    cases hd
    rcases q with ⟨n, b⟩
    simp only [List.lookup_cons] at hl ⊢
    cases hn : (i == n) with
    | true =>
      simp only [hn, Option.some.injEq] at hl
      subst hl
      exact ⟨b, rfl, ha⟩
    | false =>
      simp only [hn] at hl
      exact ih xs hxs hl

theorem decGetLevel_lookup {d : DecData ℚ} {i : ℕ} {raw : List (List ℚ)} (h : d.getLevel (i : ℤ) = .ok raw) :
    d.data.lookup i = some raw := by
  unfold DecData.getLevel at h
  split at h
  · cases h
  · split at h
    · cases h
    · unfold dictGet at h
      simp only [Int.toNat_natCast] at h
      cases hl : d.data.lookup i with
      | none => rw [hl] at h; cases h
      | some x => rw [hl] at h; cases h; rfl

theorem windowedResult_history {V : Type} {name : String} {dec : DecData V} {ref : DateTime} {acc : WinAcc V}
    {out : WinData V} (h : windowedResult name dec ref acc = .ok out) :
    out.md.history = dec.md.history ++ [name] ∧ out.data = acc.data := by
  unfold windowedResult at h
  obtain ⟨_, _, h⟩ := except_bind_ok.1 h
  cases h
  exact ⟨rfl, rfl⟩

/-- A windower on the heap, for values `result` whose levels are the views of the arrays. -/
theorem heapWindower_run (name : String) (sizes : ℕ → LevelMeta → Except Err (ℤ × ℤ)) (ref : DateTime)
    (result : DecData ℚ → Except Err (WinData ℚ)) {h : Heap} {md : ℕ} {ls : List (ℕ × ℕ)} {dec : DecData ℚ}
    {f : List (String × List String)} (hr : h.readDec md ls = .ok dec) (hf : h.filesOf md = .ok f) :
    (∀ e, result dec = .error e → heapWindower name sizes ref result md ls h = (.error e, h)) ∧
    (∀ out, result dec = .ok out → out.md.history = dec.md.history ++ [name] →
      (∀ q ∈ out.data, ∃ raw, dec.getLevel (q.1 : ℤ) = .ok raw ∧ levelView sizes ref dec.md q.1 raw = .ok q.2) →
      ∃ i views h', heapWindower name sizes ref result md ls h = (.ok (i, views), h') ∧
        (∀ j, Touch j [] h h') ∧ h'.readWin i views = .ok out ∧ ∃ c r, h'.Sound i c r f ∧ h.hists.length ≤ c.hist) := by
  constructor
  · intro e he
    unfold heapWindower
    rw [heap_reading_bind, hr]
    simp only
    rw [heap_reading_bind, hf]
    simp only
    rw [heap_reading_bind, he]
  · intro out ho hhist hviews
    refine ⟨h.mds.length, out.data.map fun q => (q.1, ⟨(ls.lookup q.1).getD 0, levelView sizes ref dec.md q.1⟩),
      h.allocRecord (.win out.md) dec.md.history f name, ?_, fun j => ?_, ?_, ?_⟩
    rotate_left
    · exact touch_alloc _ _ _ _ _
    · refine readWin_ok.2 ⟨?_, ?_⟩
      rotate_left
      · rw [List.mapM_map]
        rw [mapM_ok_iff]
        rw [List.forall₂_same]
        intro q hq
        obtain ⟨raw, h1, h2⟩ := hviews q hq
        obtain ⟨_, hd⟩ := readDec_ok.1 hr
        obtain ⟨b, hb, hraw⟩ := lookup_refs ls dec.data hd q.1 raw (decGetLevel_lookup h1)
        refine except_map_ok.2 ⟨q.2, ?_, rfl⟩
        unfold Heap.look
        simp only [hb, Option.getD_some, bind, Except.bind]
        have : deref (h.allocRecord (.win out.md) dec.md.history f name).arrs b = .ok raw := hraw
        rw [this]
        exact h2
      · have := payload_alloc h (.win out.md) (dec.md.history ++ [name]) f
        rw [← hhist] at this
        unfold Heap.allocRecord
        rw [← hhist]
        exact this
    · exact ⟨_, _, Sound_alloc _ _ _ _ _, le_refl _⟩
    · unfold heapWindower
      rw [heap_reading_bind, hr]
      simp only
      rw [heap_reading_bind, hf]
      simp only
      rw [heap_reading_bind, ho]
      simp only
      rw [newMd_record]
      rfl

theorem heapFourier_run (nfl : ℕ → ℕ) (ft : ℕ → List ℚ → List W) {h : Heap} {md : ℕ} {ls : List (ℕ × ArrView)}
    {win : WinData ℚ} {f : List (String × List String)} (hr : h.readWin md ls = .ok win) (hf : h.filesOf md = .ok f) :
    (∀ e, fourierRun nfl ft win = .error e → heapFourier nfl ft md ls h = (.error e, h)) ∧
    (∀ out, fourierRun nfl ft win = .ok out → out.md.history = win.md.history ++ ["FourierTransform"] →
      ∃ i h', heapFourier nfl ft md ls h = (.ok (i, out.data), h') ∧
        (∀ j, Touch j [] h h') ∧ h'.readSpec i out.data = .ok out ∧ ∃ c r, h'.Sound i c r f ∧ h.hists.length ≤ c.hist) := by
  constructor
  · intro e he
    unfold heapFourier
    rw [heap_reading_bind, hr]
    simp only
    rw [heap_reading_bind, hf]
    simp only
    rw [heap_reading_bind, he]
  · intro out ho hhist
    refine ⟨h.mds.length, h.allocRecord (.spec out.md) win.md.history f "FourierTransform", ?_,
      fun j => touch_alloc _ _ _ _ _, ?_, ⟨_, _, Sound_alloc _ _ _ _ _, le_refl _⟩⟩
    · unfold heapFourier
      rw [heap_reading_bind, hr]
      simp only
      rw [heap_reading_bind, hf]
      simp only
      rw [heap_reading_bind, ho]
      simp only
      rw [newMd_record]
      rfl
    · refine readSpec_ok.2 ⟨?_, rfl⟩
      have := payload_alloc h (.spec out.md) (win.md.history ++ ["FourierTransform"]) f
      rw [← hhist] at this
      unfold Heap.allocRecord
      rw [← hhist]
      exact this

theorem heapSpec_run (name : String) (g : SpecData W → Except Err (SpecData W)) {h : Heap} {md : ℕ}
    {ls : List (ℕ × SpecArr W)} {spec : SpecData W} {f : List (String × List String)}
    (hr : h.readSpec md ls = .ok spec) (hf : h.filesOf md = .ok f) :
    (∀ e, g spec = .error e → heapSpec name g md ls h = (.error e, h)) ∧
    (∀ out, g spec = .ok out → out.md.history = spec.md.history ++ [name] →
      ∃ i h', heapSpec name g md ls h = (.ok (i, out.data), h') ∧
        (∀ j, Touch j [] h h') ∧ h'.readSpec i out.data = .ok out ∧ ∃ c r, h'.Sound i c r f ∧ h.hists.length ≤ c.hist) := by
  constructor
  · intro e he
    unfold heapSpec
    rw [heap_reading_bind, hr]
    simp only
    rw [heap_reading_bind, hf]
    simp only
    rw [heap_reading_bind, he]
  · intro out ho hhist
    refine ⟨h.mds.length, h.allocRecord (.spec out.md) spec.md.history f name, ?_,
      fun j => touch_alloc _ _ _ _ _, ?_, ⟨_, _, Sound_alloc _ _ _ _ _, le_refl _⟩⟩
    · unfold heapSpec
      rw [heap_reading_bind, hr]
      simp only
      rw [heap_reading_bind, hf]
      simp only
      rw [heap_reading_bind, ho]
      simp only
      rw [newMd_record]
      rfl
    · refine readSpec_ok.2 ⟨?_, rfl⟩
      have := payload_alloc h (.spec out.md) (spec.md.history ++ [name]) f
      rw [← hhist] at this
      unfold Heap.allocRecord
      rw [← hhist]
      exact this

/-- The metadata of decimated data, before its record. -/
def decMetaOf (td : TimeData ℚ) (levels : List LevelMeta) : DecMeta where
  fs := levels.map (·.fs)
  chans := td.md.chans
  nLevels := levels.length
  firstTime := td.md.firstTime
  lastTime := td.md.lastTime
  levels := levels
  history := []

theorem heapDecimator_run (sp : SciPy) (u : Bool) (k : ℕ) (p : DecParams ℚ) {h : Heap} {o : ℕ × ℕ} {c : MdCell}
    {r : List String} {f : List (String × List String)} (hs : h.Sound o.1 c r f) {td : TimeData ℚ}
    (hr : h.readTime o.1 o.2 = .ok td) :
    ∃ res h' n, heapDecimator sp u k p o h = (res, h') ∧ n ≤ p.nLevels ∧
      Touch c.hist (List.replicate n (levelRecord u)) h h' ∧
      ((∀ i < p.nLevels, pyIndex p.decIncrements (i : ℤ) = .ok 1) → n = 0) ∧
      (∀ e, Decimator.run sp u k p td = .error e → res = .error e) ∧
      (∀ out, Decimator.run sp u k p td = .ok out → ∃ i ls, res = .ok (i, ls) ∧ h'.readDec i ls = .ok out ∧
        (∃ c' r', h'.Sound i c' r' f ∧ h.hists.length ≤ c'.hist) ∧
        n = ((List.range p.nLevels).take (out.md.nLevels + 1)).countP (levelChanged p)) := by
  obtain ⟨res, h1, n, hrun, hn, ht, hz, he, ho⟩ := heapDecLoop_run sp u k p (List.range p.nLevels) hs hr {} {} rfl rfl
  have hpure : Decimator.run sp u k p td = (do
      let acc ← decimatorLoop (decStep sp u k) p (List.range p.nLevels) td {}
      let md : DecMeta :=
        { fs := acc.levels.map (·.fs), chans := td.md.chans, nLevels := acc.levels.length,
          firstTime := td.md.firstTime, lastTime := td.md.lastTime, levels := acc.levels,
          history := td.md.history ++ ["Decimator"] }
      let _ ← dictGet acc.data 0
      return { md := md, data := acc.data }) := rfl
  have hf : h.filesOf o.1 = .ok f := filesOf_ok.2 ⟨c, hs.md, hs.files⟩
  have hrun1 : heapDecimator sp u k p o h = ((heapDecLoop sp u k p (List.range p.nLevels) o {} >>= fun acc => do
      let md : DecMeta :=
        { fs := acc.levels.map (·.fs), chans := td.md.chans, nLevels := acc.levels.length,
          firstTime := td.md.firstTime, lastTime := td.md.lastTime, levels := acc.levels, history := [] }
      let i ← newMd (.dec md) td.md.history f
      addRecord i "Decimator"
      let _ ← reading fun _ => dictGet acc.data 0
      return (i, acc.data)) : HeapM _) h := by
    unfold heapDecimator
    rw [heap_reading_bind, hr]
    simp only
    rw [heap_reading_bind, hf]
  rw [heap_bind, hrun] at hrun1
  have hz' : (∀ i < p.nLevels, pyIndex p.decIncrements (i : ℤ) = .ok 1) → n = 0 := fun hall =>
    hz fun i hi => hall i (List.mem_range.1 hi)
  have hn' : n ≤ p.nLevels := by simpa using hn
  cases hloop : decimatorLoop (decStep sp u k) p (List.range p.nLevels) td {} with
  | error e =>
    have := he e hloop
    subst this
    refine ⟨_, h1, n, hrun1, hn', ht, hz', fun e' he' => ?_, fun out ho' => ?_⟩
    · rw [hpure, hloop] at he'
      simp only [bind, Except.bind, Except.error.injEq] at he'
      rw [he']
    · rw [hpure, hloop] at ho'
      simp [bind, Except.bind] at ho'
  | ok out =>
    obtain ⟨o', rfl, hl, hd, _, hcnt⟩ := ho out hloop
    simp only at hrun1
    rw [newMd_record] at hrun1
    rw [heap_reading_bind] at hrun1
    have hkeys : o'.data.map Prod.fst = out.data.map Prod.fst := by
      rw [mapM_ok_iff] at hd
      generalize o'.data = l1 at hd
      generalize out.data = l2 at hd
      induction hd with
      | nil => rfl
      | cons hx _ ih =>
        obtain ⟨a, _, rfl⟩ := except_map_ok.1 hx
        simp [ih]
    have hdict : (∀ e, dictGet out.data 0 = .error e → dictGet o'.data 0 = .error e) ∧
        (∀ x, dictGet out.data 0 = .ok x → ∃ y, dictGet o'.data 0 = .ok y) := by
      have hlk : ∀ (l : List (ℕ × ℕ)) (m : List (ℕ × List (List ℚ))), l.map Prod.fst = m.map Prod.fst →
          ((l.lookup 0).isSome = (m.lookup 0).isSome) := by
        intro l
        induction l with
        | nil => intro m hm; cases m with
          | nil => rfl
          | cons a m => simp at hm
        | cons a l ih => intro m hm; cases m with
          | nil => simp at hm
          | cons b m =>
            simp only [List.map_cons, List.cons.injEq] at hm
            rcases a with ⟨a1, a2⟩
            rcases b with ⟨b1, b2⟩
            simp only at hm
            obtain ⟨rfl, hm⟩ := hm
            simp only [List.lookup_cons]
            cases (0 == a1)
            · exact ih m hm
            · rfl
      have := hlk o'.data out.data hkeys
      unfold dictGet
      cases h1 : out.data.lookup 0 <;> cases h2 : o'.data.lookup 0 <;> simp [h1, h2] at this ⊢
    have hal : Touch c.hist (List.replicate n (levelRecord u)) h
        (h1.allocRecord (.dec (decMetaOf td o'.levels)) td.md.history f "Decimator") := by
      have := ht.trans (touch_alloc h1 (.dec (decMetaOf td o'.levels)) (td.md.history ++ ["Decimator"]) f c.hist)
      rwa [List.append_nil] at this
    cases hget : dictGet out.data 0 with
    | error e =>
      rw [hdict.1 e hget] at hrun1
      refine ⟨_, _, n, hrun1, hn', hal, hz', fun e' he' => ?_, fun out' ho' => ?_⟩
      · rw [hpure, hloop] at he'
        simp only [bind, Except.bind, hget, Except.error.injEq] at he'
        rw [he']
      · rw [hpure, hloop] at ho'
        simp [bind, Except.bind, hget] at ho'
    | ok x =>
      obtain ⟨y, hy⟩ := hdict.2 x hget
      rw [hy] at hrun1
      refine ⟨_, _, n, hrun1, hn', hal, hz', fun e' he' => ?_, fun out' ho' => ?_⟩
      · rw [hpure, hloop] at he'
        simp [bind, Except.bind, hget, pure, Except.pure] at he'
      · rw [hpure, hloop] at ho'
        simp only [bind, Except.bind, hget, pure, Except.pure, Except.ok.injEq] at ho'
        subst ho'
        refine ⟨h1.mds.length, o'.data, rfl, readDec_ok.2 ⟨?_, hd⟩, ⟨_, _, Sound_alloc _ _ _ _ _, ht.hists_length⟩,
          by simpa using hcnt⟩
        have := payload_alloc h1 (.dec (decMetaOf td o'.levels)) (td.md.history ++ ["Decimator"]) f
        refine this.trans ?_
        rw [← hl]
        rfl

end Resistics
