import Verif.Model.History
import Verif.Lemmas.Except

/-! # Lemmas about the heap of `Verif.Model.History` -/

namespace Resistics

variable {α β W : Type}

theorem heap_pure (a : α) (h : Heap) : (pure a : HeapM α) h = (.ok a, h) := rfl

theorem heap_throw (e : Err) (h : Heap) : (throw e : HeapM α) h = (.error e, h) := rfl

theorem heap_bind (x : HeapM α) (f : α → HeapM β) (h : Heap) :
    (x >>= f) h = match x h with
      | (.ok a, h') => f a h'
      | (.error e, h') => (.error e, h') := by
  show (ExceptT.bind x f) h = _
  unfold ExceptT.bind ExceptT.mk
  show (StateT.bind x (ExceptT.bindCont f)) h = _
  unfold StateT.bind
  simp only [bind, pure]
  rcases x h with ⟨r, h'⟩
  cases r <;> rfl

theorem heap_reading (f : Heap → Except Err α) (h : Heap) : reading f h = (f h, h) := rfl

/-- A step that only reads. -/
theorem heap_reading_bind (f : Heap → Except Err α) (g : α → HeapM β) (h : Heap) :
    (reading f >>= g) h = match f h with
      | .ok a => g a h
      | .error e => (.error e, h) := by
  rw [heap_bind, heap_reading]
  cases f h <;> rfl

theorem deref_ok {l : List α} {i : ℕ} {a : α} : deref l i = .ok a ↔ l[i]? = some a := by
  unfold deref
  cases l[i]? <;> simp

theorem deref_append {l l' : List α} {i : ℕ} {a : α} (h : deref l i = .ok a) : deref (l ++ l') i = .ok a := by
  rw [deref_ok] at *
  rw [List.getElem?_append_left (List.getElem?_eq_some_iff.1 h).1]
  exact h

theorem deref_last (l : List α) (a : α) : deref (l ++ [a]) l.length = .ok a := by
  rw [deref_ok]; simp

theorem payload_withHistory_history (p : Payload) (r : List String) : (p.withHistory r).history = r := by
  cases p <;> rfl

theorem payload_withHistory_twice (p : Payload) (r s : List String) :
    (p.withHistory r).withHistory s = p.withHistory s := by cases p <;> rfl

theorem payload_withHistory_self (p : Payload) : p.withHistory p.history = p := by cases p <;> rfl

/-- What a heap may do to the objects that exist: nothing, except that the records `t` are appended to the history `j`.
New cells may appear. -/
structure Touch (j : ℕ) (t : List String) (h h' : Heap) : Prop where
  mds : ∀ i c, deref h.mds i = .ok c → deref h'.mds i = .ok c
  hists : ∀ i r, deref h.hists i = .ok r → deref h'.hists i = .ok (if i = j then r ++ t else r)
  files : ∀ i f, deref h.files i = .ok f → deref h'.files i = .ok f
  arrs : ∀ i a, deref h.arrs i = .ok a → deref h'.arrs i = .ok a

/-- The same without a promise about the data files: they can still be read. -/
structure WTouch (j : ℕ) (t : List String) (h h' : Heap) : Prop where
  mds : ∀ i c, deref h.mds i = .ok c → deref h'.mds i = .ok c
  hists : ∀ i r, deref h.hists i = .ok r → deref h'.hists i = .ok (if i = j then r ++ t else r)
  files : ∀ i f, deref h.files i = .ok f → ∃ f', deref h'.files i = .ok f'
  arrs : ∀ i a, deref h.arrs i = .ok a → deref h'.arrs i = .ok a

theorem Touch.weak {j : ℕ} {t : List String} {h h' : Heap} (a : Touch j t h h') : WTouch j t h h' :=
  ⟨a.mds, a.hists, fun i f x => ⟨f, a.files i f x⟩, a.arrs⟩

theorem WTouch.trans {j : ℕ} {t u : List String} {h h' h'' : Heap} (a : WTouch j t h h') (b : WTouch j u h' h'') :
    WTouch j (t ++ u) h h'' := by
  refine ⟨fun i c x => b.mds i c (a.mds i c x), fun i r x => ?_, fun i f x => ?_,
    fun i f x => b.arrs i f (a.arrs i f x)⟩
  · have := b.hists i _ (a.hists i r x)
    rw [this]
    split <;> simp
  · obtain ⟨f', hf'⟩ := a.files i f x
    exact b.files i f' hf'

theorem Touch.refl (j : ℕ) (h : Heap) : Touch j [] h h :=
  ⟨fun _ _ x => x, fun _ _ x => by simpa using x, fun _ _ x => x, fun _ _ x => x⟩

theorem Touch.trans {j : ℕ} {t u : List String} {h h' h'' : Heap} (a : Touch j t h h') (b : Touch j u h' h'') :
    Touch j (t ++ u) h h'' := by
  refine ⟨fun i c x => b.mds i c (a.mds i c x), fun i r x => ?_, fun i f x => b.files i f (a.files i f x),
    fun i f x => b.arrs i f (a.arrs i f x)⟩
  have := b.hists i _ (a.hists i r x)
  rw [this]
  split <;> simp

/-- A change of nothing may be attributed to any history. -/
theorem Touch.nil_any {j : ℕ} {h h' : Heap} (a : Touch j [] h h') (k : ℕ) : Touch k [] h h' :=
  ⟨a.mds, fun i r x => by simpa using a.hists i r x, a.files, a.arrs⟩

/-- The objects whose history is `j`. -/
def Heap.uses (h : Heap) (md j : ℕ) : Prop := ∃ c, deref h.mds md = .ok c ∧ c.hist = j

/-- The contents of an object with more history. -/
def Value.addHistory : Value W → List String → Value W
  | .time d, t => .time { d with md := { d.md with history := d.md.history ++ t } }
  | .dec d, t => .dec { d with md := { d.md with history := d.md.history ++ t } }
  | .win d, t => .win { d with md := { d.md with history := d.md.history ++ t } }
  | .spec d, t => .spec { d with md := { d.md with history := d.md.history ++ t } }

theorem Value.addHistory_nil (v : Value W) : v.addHistory [] = v := by
  cases v <;> simp [Value.addHistory]

theorem payload_ok {h : Heap} {i : ℕ} {p : Payload} :
    h.payload i = .ok p ↔ ∃ c r, deref h.mds i = .ok c ∧ deref h.hists c.hist = .ok r ∧ p = c.payload.withHistory r := by
  unfold Heap.payload
  simp only [bind, Except.bind]
  cases hm : deref h.mds i with
  | error e => simp
  | ok c =>
    cases hr : deref h.hists c.hist with
    | error e => simp [hr]
    | ok r =>
      simp only [hr, pure, Except.pure, Except.ok.injEq]
      constructor
      · intro x; exact ⟨c, r, rfl, hr, x.symm⟩
      · rintro ⟨c', r', h1, h2, h3⟩
        subst h1
        rw [hr] at h2
        cases h2
        exact h3.symm

open Classical in
/-- The metadata of an existing object after a change. -/
theorem WTouch.payload {j : ℕ} {t : List String} {h h' : Heap} (a : WTouch j t h h') {i : ℕ} {p : Payload}
    (hp : h.payload i = .ok p) :
    h'.payload i = .ok (p.withHistory (p.history ++ if h.uses i j then t else [])) := by
  obtain ⟨c, r, h1, h2, rfl⟩ := payload_ok.1 hp
  refine payload_ok.2 ⟨c, _, a.mds _ _ h1, a.hists _ _ h2, ?_⟩
  rw [payload_withHistory_history, payload_withHistory_twice]
  have hu : h.uses i j ↔ c.hist = j := by
    constructor
    · rintro ⟨c', hc', hj⟩
      rw [h1] at hc'
      cases hc'
      exact hj
    · intro hj; exact ⟨c, h1, hj⟩
  by_cases hj : c.hist = j
  · rw [if_pos hj, if_pos (hu.2 hj)]
  · rw [if_neg hj, if_neg (fun x => hj (hu.1 x)), List.append_nil]

theorem readTime_ok {h : Heap} {md arr : ℕ} {td : TimeData ℚ} :
    h.readTime md arr = .ok td ↔ h.payload md = .ok (.time td.md) ∧ deref h.arrs arr = .ok td.data := by
  unfold Heap.readTime
  simp only [bind, Except.bind]
  cases hp : h.payload md with
  | error e => simp
  | ok p =>
    cases ha : deref h.arrs arr with
    | error e => simp
    | ok a =>
      cases p <;> simp [pure, Except.pure, throw, throwThe, MonadExceptOf.throw]
      constructor
      · rintro rfl; exact ⟨rfl, rfl⟩
      · rintro ⟨rfl, rfl⟩; rfl

theorem readDec_ok {h : Heap} {md : ℕ} {ls : List (ℕ × ℕ)} {d : DecData ℚ} :
    h.readDec md ls = .ok d ↔ h.payload md = .ok (.dec d.md) ∧
      (ls.mapM fun q => (deref h.arrs q.2).map fun a => (q.1, a)) = .ok d.data := by
  unfold Heap.readDec
  simp only [bind, Except.bind]
  cases hp : h.payload md with
  | error e => simp
  | ok p =>
    cases ha : (ls.mapM fun q => (deref h.arrs q.2).map fun a => (q.1, a)) with
    | error e => simp
    | ok a =>
      cases p <;> simp [pure, Except.pure, throw, throwThe, MonadExceptOf.throw]
      constructor
      · rintro rfl; exact ⟨rfl, rfl⟩
      · rintro ⟨rfl, rfl⟩; rfl

theorem readWin_ok {h : Heap} {md : ℕ} {ls : List (ℕ × ArrView)} {d : WinData ℚ} :
    h.readWin md ls = .ok d ↔ h.payload md = .ok (.win d.md) ∧
      (ls.mapM fun q => (h.look q.2).map fun a => (q.1, a)) = .ok d.data := by
  unfold Heap.readWin
  simp only [bind, Except.bind]
  cases hp : h.payload md with
  | error e => simp
  | ok p =>
    cases ha : (ls.mapM fun q => (h.look q.2).map fun a => (q.1, a)) with
    | error e => simp
    | ok a =>
      cases p <;> simp [pure, Except.pure, throw, throwThe, MonadExceptOf.throw]
      constructor
      · rintro rfl; exact ⟨rfl, rfl⟩
      · rintro ⟨rfl, rfl⟩; rfl

theorem readSpec_ok {h : Heap} {md : ℕ} {ls : List (ℕ × SpecArr W)} {d : SpecData W} :
    h.readSpec md ls = .ok d ↔ h.payload md = .ok (.spec d.md) ∧ ls = d.data := by
  unfold Heap.readSpec
  simp only [bind, Except.bind]
  cases hp : h.payload md with
  | error e => simp
  | ok p =>
    cases p <;> simp [pure, Except.pure, throw, throwThe, MonadExceptOf.throw]
    constructor
    · rintro rfl; exact ⟨rfl, rfl⟩
    · rintro ⟨rfl, rfl⟩; rfl

theorem except_map_ok {ε : Type} {f : α → β} {x : Except ε α} {b : β} :
    x.map f = .ok b ↔ ∃ a, x = .ok a ∧ f a = b := by
  cases x <;> simp [Except.map]

/-- Reading a list of cells gives the same when every cell that can be read gives the same. -/
theorem mapM_mono {γ : Type} {f g : α → Except Err γ} {l : List α} {out : List γ}
    (hfg : ∀ a b, f a = .ok b → g a = .ok b) (h : l.mapM f = .ok out) : l.mapM g = .ok out := by
  induction l generalizing out with
  | nil => simpa using h
  | cons a l ih =>
    rw [List.mapM_cons] at *
    cases hfa : f a with
    | error e => rw [hfa] at h; simp [bind, Except.bind] at h
    | ok b =>
      rw [hfa] at h
      rw [hfg a b hfa]
      cases hl : l.mapM f with
      | error e => rw [hl] at h; simp [bind, Except.bind] at h
      | ok bs =>
        rw [hl] at h
        rw [ih hl]
        exact h

theorem WTouch.look {j : ℕ} {t : List String} {h h' : Heap} (a : WTouch j t h h') {v : ArrView} {x : WinArr ℚ}
    (hx : h.look v = .ok x) : h'.look v = .ok x := by
  unfold Heap.look at *
  simp only [bind, Except.bind] at *
  cases hd : deref h.arrs v.base with
  | error e => rw [hd] at hx; simp at hx
  | ok arr =>
    rw [hd] at hx
    rw [a.arrs _ _ hd]
    exact hx

open Classical in
/-- The contents of an existing object after a change. -/
theorem WTouch.read {j : ℕ} {t : List String} {h h' : Heap} (a : WTouch j t h h') {o : Obj W} {v : Value W}
    (hv : h.read o = .ok v) : h'.read o = .ok (v.addHistory (if h.uses o.md j then t else [])) := by
  cases o with
  | time m x =>
    obtain ⟨d, hd, rfl⟩ := except_map_ok.1 hv
    obtain ⟨hp, ha⟩ := readTime_ok.1 hd
    exact except_map_ok.2 ⟨{ d with md := { d.md with history := d.md.history ++ if h.uses m j then t else [] } },
      readTime_ok.2 ⟨a.payload hp, a.arrs _ _ ha⟩, rfl⟩
  | dec m x =>
    obtain ⟨d, hd, rfl⟩ := except_map_ok.1 hv
    obtain ⟨hp, ha⟩ := readDec_ok.1 hd
    refine except_map_ok.2 ⟨{ d with md := { d.md with history := d.md.history ++ if h.uses m j then t else [] } },
      readDec_ok.2 ⟨a.payload hp, mapM_mono ?_ ha⟩, rfl⟩
    intro q b hq
    obtain ⟨c, hc, rfl⟩ := except_map_ok.1 hq
    exact except_map_ok.2 ⟨c, a.arrs _ _ hc, rfl⟩
  | win m x =>
    obtain ⟨d, hd, rfl⟩ := except_map_ok.1 hv
    obtain ⟨hp, ha⟩ := readWin_ok.1 hd
    refine except_map_ok.2 ⟨{ d with md := { d.md with history := d.md.history ++ if h.uses m j then t else [] } },
      readWin_ok.2 ⟨a.payload hp, mapM_mono ?_ ha⟩, rfl⟩
    intro q b hq
    obtain ⟨c, hc, rfl⟩ := except_map_ok.1 hq
    exact except_map_ok.2 ⟨c, a.look hc, rfl⟩
  | spec m x =>
    obtain ⟨d, hd, rfl⟩ := except_map_ok.1 hv
    obtain ⟨hp, ha⟩ := readSpec_ok.1 hd
    exact except_map_ok.2 ⟨{ d with md := { d.md with history := d.md.history ++ if h.uses m j then t else [] } },
      readSpec_ok.2 ⟨a.payload hp, ha⟩, rfl⟩

open Classical in
theorem Touch.read {j : ℕ} {t : List String} {h h' : Heap} (a : Touch j t h h') {o : Obj W} {v : Value W}
    (hv : h.read o = .ok v) : h'.read o = .ok (v.addHistory (if h.uses o.md j then t else [])) := a.weak.read hv

open Classical in
theorem Touch.payload {j : ℕ} {t : List String} {h h' : Heap} (a : Touch j t h h') {i : ℕ} {p : Payload}
    (hp : h.payload i = .ok p) :
    h'.payload i = .ok (p.withHistory (p.history ++ if h.uses i j then t else [])) := a.weak.payload hp

theorem Touch.look {j : ℕ} {t : List String} {h h' : Heap} (a : Touch j t h h') {v : ArrView} {x : WinArr ℚ}
    (hx : h.look v = .ok x) : h'.look v = .ok x := a.weak.look hx

/-- Histories are never removed. -/
theorem Touch.hists_length {j : ℕ} {t : List String} {h h' : Heap} (a : Touch j t h h') :
    h.hists.length ≤ h'.hists.length := by
  by_contra hlt
  push Not at hlt
  have h1 : deref h.hists h'.hists.length = .ok (h.hists[h'.hists.length]) := by
    rw [deref_ok, List.getElem?_eq_getElem hlt]
  have h2 := a.hists _ _ h1
  rw [deref_ok] at h2
  exact absurd (List.getElem?_eq_some_iff.1 h2).1 (lt_irrefl _)

theorem filesOf_ok {h : Heap} {i : ℕ} {f : List (String × List String)} :
    h.filesOf i = .ok f ↔ ∃ c, deref h.mds i = .ok c ∧ deref h.files c.files = .ok f := by
  unfold Heap.filesOf
  simp only [bind, Except.bind]
  cases deref h.mds i <;> simp

theorem Touch.filesOf {j : ℕ} {t : List String} {h h' : Heap} (a : Touch j t h h') {i : ℕ}
    {f : List (String × List String)} (hf : h.filesOf i = .ok f) : h'.filesOf i = .ok f := by
  obtain ⟨c, h1, h2⟩ := filesOf_ok.1 hf
  exact filesOf_ok.2 ⟨c, a.mds _ _ h1, a.files _ _ h2⟩

/-! ## The primitive operations -/

theorem touch_arr (h : Heap) (a : List (List ℚ)) (j : ℕ) : Touch j [] h { h with arrs := h.arrs ++ [a] } :=
  ⟨fun _ _ x => x, fun _ _ x => by simpa using x, fun _ _ x => x, fun _ _ x => deref_append x⟩

theorem touch_md (h : Heap) (c : MdCell) (j : ℕ) : Touch j [] h { h with mds := h.mds ++ [c] } :=
  ⟨fun _ _ x => deref_append x, fun _ _ x => by simpa using x, fun _ _ x => x, fun _ _ x => x⟩

theorem touch_alloc (h : Heap) (p : Payload) (r : List String) (f : List (String × List String)) (j : ℕ) :
    Touch j [] h (h.alloc p r f) :=
  ⟨fun _ _ x => deref_append x, fun _ _ x => by
    simpa [Heap.alloc] using deref_append (l' := [r]) x, fun _ _ x => deref_append x, fun _ _ x => x⟩

theorem deref_modify {l : List α} {i : ℕ} {a : α} (f : α → α) (j : ℕ) (h : deref l i = .ok a) :
    deref (l.modify j f) i = .ok (if i = j then f a else a) := by
  rw [deref_ok] at *
  rw [List.getElem?_modify, h]
  by_cases hij : i = j
  · subst hij; simp
  · rw [if_neg hij]; simp [Ne.symm hij]

theorem touch_record (h : Heap) (j : ℕ) (name : String) :
    Touch j [name] h { h with hists := h.hists.modify j fun r => r ++ [name] } :=
  ⟨fun _ _ x => x, fun _ _ x => deref_modify _ _ x, fun _ _ x => x, fun _ _ x => x⟩

/-- A new metadata object to which a record has been added: the heap. -/
def Heap.allocRecord (h : Heap) (p : Payload) (r : List String) (f : List (String × List String)) (name : String) :
    Heap := h.alloc p (r ++ [name]) f

theorem addRecord_new (h : Heap) (p : Payload) (r : List String) (f : List (String × List String)) (name : String) :
    addRecord h.mds.length name (h.alloc p r f) = (.ok (), h.allocRecord p r f name) := by
  unfold addRecord
  have : deref (h.alloc p r f).mds h.mds.length = .ok ⟨p, h.hists.length, h.files.length⟩ := deref_last _ _
  rw [this]
  show (Except.ok (), _) = _
  have hm : (h.hists ++ [r]).modify h.hists.length (fun r => r ++ [name]) = h.hists ++ [r ++ [name]] := by
    rw [List.modify_eq_set_getElem?]
    simp
  simp only [Heap.alloc, Heap.allocRecord, hm]

/-- The contents of a new metadata object. -/
theorem payload_alloc (h : Heap) (p : Payload) (r : List String) (f : List (String × List String)) :
    (h.alloc p r f).payload h.mds.length = .ok (p.withHistory r) :=
  payload_ok.2 ⟨_, r, deref_last _ _, deref_last _ _, rfl⟩

theorem filesOf_alloc (h : Heap) (p : Payload) (r : List String) (f : List (String × List String)) :
    (h.alloc p r f).filesOf h.mds.length = .ok f :=
  filesOf_ok.2 ⟨_, deref_last _ _, deref_last _ _⟩

end Resistics
