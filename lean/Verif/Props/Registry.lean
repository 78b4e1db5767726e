import Verif.Model.Registry
import Verif.Lemmas.Heap
import Verif.Props.GatherData

/-!
# Processes are rebuilt as the class they were saved as (C48)
-/

namespace Resistics

/-! ## Specification -/

/-- Specification: the fields of a class have different names, and none of them is the name. -/
def ProcClass.WellFormed (c : ProcClass) : Prop := (c.fields.map ProcField.name).Nodup ∧ "name" ∉ c.fields.map ProcField.name

/-- Specification: a process that can be saved: it is an object of a class registered under its name, carries the name of
its class, its plain values are accepted as they were saved, and the processes in its fields can be saved as well. -/
inductive Saveable (classes : List ProcClass) (types : List (String × ℕ)) : PVal → Prop
  | mk (cls : ℕ) (c : ProcClass) (vals : List PVal)
      (hc : classes[cls]? = some c) (hreg : types.lookup c.className = some cls) (hlen : vals.length = c.fields.length)
      (hplain : ∀ (i : ℕ) (f : ProcField) (v : PVal) (check : PVal → Except Err PVal), c.fields[i]? = some f →
        vals[i]? = some v → f.kind = .plain check → check v.toDict = .ok v)
      (hproc : ∀ (i : ℕ) (f : ProcField) (v : PVal), c.fields[i]? = some f → vals[i]? = some v → f.kind = .process →
        Saveable classes types v)
      (hlist : ∀ (i : ℕ) (f : ProcField) (v : PVal), c.fields[i]? = some f → vals[i]? = some v → f.kind = .processes →
        ∃ l, v = .list l)
      (hprocs : ∀ (i : ℕ) (f : ProcField) (l : List PVal) (x : PVal), c.fields[i]? = some f →
        vals[i]? = some (.list l) → f.kind = .processes → x ∈ l → Saveable classes types x) :
      Saveable classes types (.proc cls (("name", .str c.className) :: (c.fields.map ProcField.name).zip vals))

/-- Specification: a value may be that of a field. -/
def FieldSaveable (classes : List ProcClass) (types : List (String × ℕ)) (f : ProcField) (v : PVal) : Prop :=
  match f.kind with
  | .plain check => check v.toDict = .ok v
  | .process => Saveable classes types v
  | .processes => ∃ l, v = .list l ∧ ∀ x ∈ l, Saveable classes types x

/-- Specification: the classes are such that checks accept what they returned, also after saving, and defaults can be
saved. -/
def ProcClass.Stable (classes : List ProcClass) (types : List (String × ℕ)) (c : ProcClass) : Prop :=
  ∀ f ∈ c.fields, (∀ check, f.kind = .plain check → ∀ v w, check v = .ok w → check w.toDict = .ok w) ∧
    ∀ d, f.default? = some d → FieldSaveable classes types f d

mutual
/-- Specification: a JSON value, which has no processes inside. -/
def PVal.IsJson : PVal → Prop
  | .null => True
  | .bool _ => True
  | .num _ => True
  | .str _ => True
  | .list l => PVal.AllJson l
  | .dict d => PVal.EntriesJson d
  | .proc _ _ => False

/-- See `PVal.IsJson`. -/
def PVal.AllJson : List PVal → Prop
  | [] => True
  | v :: l => v.IsJson ∧ PVal.AllJson l

/-- See `PVal.IsJson`. -/
def PVal.EntriesJson : List (String × PVal) → Prop
  | [] => True
  | (_, v) :: l => v.IsJson ∧ PVal.EntriesJson l
end

/-! ## Lemmas -/

theorem find_entries (classes : List ProcClass) (types : List (String × ℕ)) (d : List (String × PVal)) (k : String) :
    (validateEntries classes types d).find? (fun e => decide (e.key = k)) =
      (d.find? fun q => decide (q.1 = k)).map fun q =>
        ⟨q.1, q.2, validateProcess classes types q.2, validateProcesses classes types q.2⟩ := by
  induction d with
  | nil => simp [validateEntries]
  | cons q l ih =>
    obtain ⟨k', v⟩ := q
    rw [validateEntries, List.find?_cons, List.find?_cons]
    by_cases h : k' = k
    · simp [h]
    · simp only [h, decide_false]
      exact ih

theorem find_unnamed (es : List Entry) (k : String) (hk : k ≠ "name") :
    (es.filter fun e => e.key ≠ "name").find? (fun e => decide (e.key = k)) = es.find? fun e => decide (e.key = k) := by
  rw [List.find?_filter]
  congr 1
  funext e
  by_cases h : e.key = k
  · simp [h, hk]
  · simp [h]

theorem toDictEntries_eq (l : List (String × PVal)) : PVal.toDictEntries l = l.map fun q => (q.1, q.2.toDict) := by
  induction l with
  | nil => rfl
  | cons q l ih => obtain ⟨k, v⟩ := q; rw [PVal.toDictEntries, ih]; rfl

theorem toDictList_eq (l : List PVal) : PVal.toDictList l = l.map PVal.toDict := by
  induction l with
  | nil => rfl
  | cons q l ih => rw [PVal.toDictList, ih]; rfl

theorem validateAll_eq (classes : List ProcClass) (types : List (String × ℕ)) (l : List PVal) :
    validateAll classes types l = l.mapM (validateProcess classes types) := by
  induction l with
  | nil => rfl
  | cons v l ih => rw [validateAll, ih, List.mapM_cons]

theorem find_zip {names : List String} {vals : List PVal} (hnd : names.Nodup) (hlen : vals.length = names.length)
    (i : ℕ) (hi : i < names.length) :
    (names.zip vals).find? (fun q => decide (q.1 = names[i])) = some (names[i], vals[i]'(hlen ▸ hi)) := by
  induction names generalizing vals i with
  | nil => simp at hi
  | cons n ns ih =>
    cases vals with
    | nil => simp at hlen
    | cons v vs =>
      rw [List.zip_cons_cons, List.find?_cons]
      cases i with
      | zero => simp
      | succ i =>
        simp only [List.getElem_cons_succ]
        rw [List.nodup_cons] at hnd
        have hne : n ≠ ns[i]'(by simpa using hi) := fun h => hnd.1 (h ▸ List.getElem_mem _)
        simp only [hne, decide_false]
        exact ih hnd.2 (by simpa using hlen) i (by simpa using hi)

theorem mapM_zip {α β γ : Type} {f : α → Except Err γ} {as : List α} {bs : List β} {g : α → β → γ}
    (hlen : bs.length = as.length) (h : ∀ (i : ℕ) (hi : i < as.length), f as[i] = .ok (g as[i] (bs[i]'(hlen ▸ hi)))) :
    as.mapM f = .ok (List.zipWith g as bs) := by
  induction as generalizing bs with
  | nil => cases bs <;> simp_all [pure, Except.pure]
  | cons a as ih =>
    cases bs with
    | nil => simp at hlen
    | cons b bs =>
      have h0 := h 0 (by simp)
      simp only [List.getElem_cons_zero] at h0
      rw [List.mapM_cons, h0, ih (by simpa using hlen) fun i hi => by
        have := h (i + 1) (by simpa using hi)
        simpa using this]
      rfl

theorem nameOf_cons (v : PVal) (l : List (String × PVal)) : nameOf (("name", v) :: l) = some v := by
  rw [nameOf, if_pos rfl]

/-! ## C48 -/

/-- **C48 (rebuilt)**: a process that can be saved is rebuilt from what was saved of it: the same class with the same
parameters, and so are the processes inside it. -/
theorem C48_rebuilt (classes : List ProcClass) (types : List (String × ℕ)) (hw : ∀ c ∈ classes, c.WellFormed) (v : PVal)
    (hv : Saveable classes types v) : validateProcess classes types v.toDict = .ok v := by
  induction hv with
  | mk cls c vals hc hreg hlen hplain hproc hlist hprocs ihproc ihprocs =>
    obtain ⟨hnd, hnn⟩ := hw c (List.mem_of_getElem? hc)
    rw [PVal.toDict, toDictEntries_eq, List.map_cons, validateProcess, nameOf_cons, PVal.toDict]
    rw [fromDict]
    simp only [hreg]
    have hcons : construct classes cls ((validateEntries classes types (("name", PVal.str c.className) ::
        ((c.fields.map ProcField.name).zip vals).map fun q => (q.1, q.2.toDict))).filter fun e => e.key ≠ "name") =
        .ok (.proc cls (("name", .str c.className) :: (c.fields.map ProcField.name).zip vals)) := by
      unfold construct
      rw [hc]
      simp only
      have hm : c.fields.mapM (fieldValue ((validateEntries classes types (("name", PVal.str c.className) ::
        ((c.fields.map ProcField.name).zip vals).map fun q => (q.1, q.2.toDict))).filter fun e => e.key ≠ "name")) =
          .ok (List.zipWith (fun f v => (f.name, v)) c.fields vals) := by
        apply mapM_zip hlen
        intro i hi
        have hfne : c.fields[i].name ≠ "name" := fun h => hnn (h ▸ List.mem_map.2 ⟨_, List.getElem_mem hi, rfl⟩)
        unfold fieldValue
        rw [find_unnamed _ _ hfne, find_entries, List.find?_cons]
        have hne : ¬ ("name" = c.fields[i].name) := fun h => hfne h.symm
        simp only [hne, decide_false]
        have hz : ((c.fields.map ProcField.name).zip vals).map (fun q => (q.1, q.2.toDict)) =
            (c.fields.map ProcField.name).zip (vals.map PVal.toDict) := by
          rw [List.zip_map_right]
          rfl
        have hf := find_zip (vals := vals.map PVal.toDict) hnd (by simpa using hlen) i (by simpa using hi)
        rw [List.getElem_map] at hf
        rw [hz, hf]
        simp only [Option.map_some, List.getElem_map]
        have hfi : c.fields[i]? = some c.fields[i] := List.getElem?_eq_getElem hi
        have hvi : vals[i]? = some (vals[i]'(hlen ▸ hi)) := List.getElem?_eq_getElem _
        cases hk : c.fields[i].kind with
        | plain check => simp only [hplain i _ _ check hfi hvi hk]; rfl
        | process => simp only [ihproc i _ _ hfi hvi hk]; rfl
        | processes =>
          obtain ⟨l, hl⟩ := hlist i _ _ hfi hvi hk
          rw [hl] at hvi ⊢
          simp only [PVal.toDict, validateProcesses, validateAll_eq, toDictList_eq]
          have : (l.map PVal.toDict).mapM (validateProcess classes types) = .ok l := by
            have hall : ∀ x ∈ l, validateProcess classes types x.toDict = .ok x :=
              fun x hx => ihprocs i _ l x hfi hvi hk hx
            clear hl hvi hlist ihprocs hprocs hf hz
            induction l with
            | nil => rfl
            | cons x l ih =>
              rw [List.map_cons, List.mapM_cons, hall x (by simp), ih fun y hy => hall y (by simp [hy])]
              rfl
          rw [this]
          rfl
      rw [hm]
      simp only [bind, Except.bind, pure, Except.pure]
      rw [List.zip, List.zipWith_map_left]
    rw [hcons]

/-- **C48 (refusals)**: anything but a process or a dictionary is refused with a `ValueError`, a dictionary without a name
with a `KeyError`, one with an unknown name with a `ValueError`; a process is returned as it is; no other exceptions are
raised. -/
theorem C48_refusals (classes : List ProcClass) (types : List (String × ℕ)) :
    (∀ c f, validateProcess classes types (.proc c f) = .ok (.proc c f)) ∧
    (∀ v, (∀ c f, v ≠ .proc c f) → (∀ d, v ≠ .dict d) → validateProcess classes types v = .error .value) ∧
    (∀ d, "name" ∉ d.map Prod.fst → validateProcess classes types (.dict d) = .error .key) ∧
    (∀ d n, nameOf d = some (.str n) → types.lookup n = none → validateProcess classes types (.dict d) = .error .value) ∧
    (∀ v e, validateProcess classes types v = .error e → e = .value ∨ e = .key ∧ ∃ d, v = .dict d ∧
      "name" ∉ d.map Prod.fst) := by
  have hname : ∀ d : List (String × PVal), nameOf d = none ↔ "name" ∉ d.map Prod.fst := by
    intro d
    induction d with
    | nil => simp [nameOf]
    | cons q l ih =>
      rw [nameOf]
      by_cases h : q.1 = "name"
      · simp [h]
      · rw [if_neg h, ih]
        simp [Ne.symm h]
  refine ⟨fun c f => rfl, ?_, ?_, ?_, ?_⟩
  · intro v h1 h2
    cases v with
    | dict d => exact absurd rfl (h2 d)
    | proc c f => exact absurd rfl (h1 c f)
    | _ => rfl
  · intro d h
    rw [validateProcess, (hname d).2 h, fromDict]
  · intro d n h1 h2
    rw [validateProcess, h1, fromDict, h2]
  · intro v e h
    cases v with
    | dict d =>
      rw [validateProcess] at h
      cases hn : nameOf d with
      | none =>
        rw [hn, fromDict] at h
        cases h
        exact Or.inr ⟨rfl, d, rfl, (hname d).1 hn⟩
      | some x =>
        left
        rw [hn] at h
        cases x with
        | str s =>
          rw [fromDict] at h
          split at h
          · cases h; rfl
          · split at h <;> cases h
            rfl
        | _ => cases h; rfl
    | proc c f => cases h
    | _ => left; cases h; rfl

/-- **C48 (parameters)**: what is made from a dictionary with a known name: an object of the class registered under the
name, called like its class; a field that is in the dictionary has the value given there after validation, one that is not
has its default; other keys are ignored. -/
theorem C48_parameters (classes : List ProcClass) (types : List (String × ℕ)) (d : List (String × PVal)) (n : String)
    (hn : nameOf d = some (.str n)) (w : PVal) (h : validateProcess classes types (.dict d) = .ok w) :
    ∃ cls c vals, types.lookup n = some cls ∧ classes[cls]? = some c ∧
      w = .proc cls (("name", .str c.className) :: vals) ∧ vals.map Prod.fst = c.fields.map ProcField.name ∧
      ∀ (i : ℕ) (f : ProcField), c.fields[i]? = some f → f.name ≠ "name" → ∃ v, vals[i]? = some (f.name, v) ∧
        ((∀ q ∈ d, q.1 ≠ f.name) → f.default? = some v) ∧
        (∀ x, d.find? (fun q => decide (q.1 = f.name)) = some (f.name, x) →
          (∀ check, f.kind = .plain check → check x = .ok v) ∧
          (f.kind = .process → validateProcess classes types x = .ok v) ∧
          (f.kind = .processes → ∃ l l', x = .list l ∧ v = .list l' ∧ l.mapM (validateProcess classes types) = .ok l')) := by
  rw [validateProcess, hn, fromDict] at h
  split at h
  · cases h
  · rename_i cls hcls
    split at h
    · rename_i w' hcon
      cases h
      unfold construct at hcon
      split at hcon
      · cases hcon
      · rename_i c hc
        obtain ⟨vals, hvals, hw⟩ := except_bind_ok.1 hcon
        have hw := except_pure_ok.1 hw
        have hlen := mapM_ok_length hvals
        have hval : ∀ (i : ℕ) (hi : i < c.fields.length), fieldValue ((validateEntries classes types d).filter
            fun e => e.key ≠ "name") c.fields[i] = .ok (vals[i]'(hlen ▸ hi)) :=
          fun i hi => mapM_ok_getElem hvals i hi (hlen ▸ hi)
        have hfst : ∀ (es : List Entry) (f : ProcField) (q : String × PVal), fieldValue es f = .ok q → q.1 = f.name := by
          intro es f q hq
          unfold fieldValue at hq
          split at hq
          · split at hq <;> cases hq; rfl
          · split at hq <;> (obtain ⟨v, -, rfl⟩ := except_map_ok.1 hq; rfl)
        refine ⟨cls, c, vals, hcls, hc, hw.symm, ?_, ?_⟩
        · apply List.ext_getElem
          · simpa using hlen
          · intro i h1 h2
            rw [List.getElem_map, List.getElem_map]
            exact hfst _ _ _ (hval i (by simpa using h2))
        · intro i f hf hfn
          obtain ⟨hi, rfl⟩ := List.getElem?_eq_some_iff.1 hf
          have hv := hval i hi
          have hq1 := hfst _ _ _ hv
          refine ⟨(vals[i]'(hlen ▸ hi)).2, ?_, ?_, ?_⟩
          · rw [List.getElem?_eq_getElem (hlen ▸ hi), ← hq1]
          · intro hno
            unfold fieldValue at hv
            rw [find_unnamed _ _ hfn, find_entries, List.find?_eq_none.2 (by simpa using fun a b hab => hno (a, b) hab)] at hv
            simp only [Option.map_none] at hv
            split at hv
            · cases hv
            · rename_i dv hdv
              have := Except.ok.inj hv
              rw [← this]
              exact hdv
          · intro x hx
            unfold fieldValue at hv
            rw [find_unnamed _ _ hfn, find_entries, hx] at hv
            simp only [Option.map_some] at hv
            refine ⟨?_, ?_, ?_⟩
            · intro check hk
              rw [hk] at hv
              obtain ⟨v, h1, h2⟩ := except_map_ok.1 hv
              rw [← h2]; exact h1
            · intro hk
              rw [hk] at hv
              obtain ⟨v, h1, h2⟩ := except_map_ok.1 hv
              rw [← h2]; exact h1
            · intro hk
              rw [hk] at hv
              obtain ⟨v, h1, h2⟩ := except_map_ok.1 hv
              cases x with
              | list l =>
                rw [validateProcesses] at h1
                obtain ⟨l', h3, h4⟩ := except_map_ok.1 h1
                rw [validateAll_eq] at h3
                exact ⟨l, l', rfl, by rw [← h2]; exact h4.symm, h3⟩
              | _ => cases h1
    · cases h

/-! ## Definitions of classes -/

theorem defineAll_append (cs : List ProcClass) (c : ProcClass) :
    defineAll (cs ++ [c]) = ((defineAll cs).1 ++ [c], dictSet (defineAll cs).2 c.className (defineAll cs).1.length) := by
  unfold defineAll
  rw [List.foldl_append]
  rfl

/-- **C48 (registry)**: after any history of class definitions, a name stands for the last class defined with that name. -/
theorem C48_registry (cs : List ProcClass) :
    (defineAll cs).1 = cs ∧ ∀ n i, (defineAll cs).2.lookup n = some i ↔
      ((cs[i]?).map ProcClass.className = some n ∧
        ∀ j, i < j → (cs[j]?).map ProcClass.className ≠ some n) := by
  induction cs using List.reverseRecOn with
  | nil => simp [defineAll]
  | append_singleton cs c ih =>
    obtain ⟨h1, h2⟩ := ih
    rw [defineAll_append]
    refine ⟨by simp [h1], fun n i => ?_⟩
    simp only
    rw [dictSet_lookup, h1]
    by_cases hn : n = c.className
    · rw [if_pos hn]
      constructor
      · intro h
        have : cs.length = i := Option.some.inj h
        subst this
        refine ⟨by simp [hn], fun j hj => ?_⟩
        rw [List.getElem?_eq_none (by simp; omega)]
        simp
      · rintro ⟨h3, h4⟩
        by_contra hne
        have hne : i ≠ cs.length := fun h => hne (by rw [h])
        have hlt : i < cs.length := by
          by_contra hge
          rw [List.getElem?_eq_none (by simp; omega)] at h3
          cases h3
        exact h4 cs.length hlt (by simp [hn])
    · rw [if_neg hn, h2]
      have key : ∀ j : ℕ, ((cs ++ [c])[j]?).map ProcClass.className = some n ↔
          (cs[j]?).map ProcClass.className = some n := by
        intro j
        rcases lt_trichotomy j cs.length with h | h | h
        · rw [List.getElem?_append_left h]
        · subst h
          simp [Ne.symm hn]
        · rw [List.getElem?_eq_none (by simp; omega), List.getElem?_eq_none (by omega)]
      simp only [key, Ne]

/-- Specification: an entry of the registry is a class of that name. -/
def RegistryOk (classes : List ProcClass) (types : List (String × ℕ)) : Prop :=
  ∀ n i, types.lookup n = some i → (classes[i]?).map ProcClass.className = some n

/-- **C48 (registry)**: a registry is always consistent. -/
theorem C48_registry_consistent (cs : List ProcClass) : RegistryOk (defineAll cs).1 (defineAll cs).2 := by
  intro n i h
  rw [(C48_registry cs).1]
  exact (((C48_registry cs).2 n i).1 h).1

/-! ## What is made can be saved -/

theorem saveable_fieldValue {classes : List ProcClass} {types : List (String × ℕ)} {c : ProcClass}
    (hs : c.Stable classes types) {f : ProcField} (hf : f ∈ c.fields) {es : List Entry}
    (hes : ∀ e ∈ es, (∀ w, e.asProc = .ok w → Saveable classes types w) ∧
      (∀ w, e.asProcs = .ok w → ∃ l, w = .list l ∧ ∀ x ∈ l, Saveable classes types x)) {q : String × PVal}
    (h : fieldValue es f = .ok q) : q.1 = f.name ∧ FieldSaveable classes types f q.2 := by
  unfold fieldValue at h
  split at h
  · split at h
    · cases h
    · rename_i d hd
      cases h
      exact ⟨rfl, (hs f hf).2 _ hd⟩
  · rename_i e he
    have hem := hes e (List.mem_of_find?_eq_some he)
    unfold FieldSaveable
    split at h
    · rename_i check hk
      obtain ⟨v, h1, rfl⟩ := except_map_ok.1 h
      rw [hk]
      exact ⟨rfl, (hs f hf).1 check hk _ _ h1⟩
    · rename_i hk
      obtain ⟨v, h1, rfl⟩ := except_map_ok.1 h
      rw [hk]
      exact ⟨rfl, hem.1 v h1⟩
    · rename_i hk
      obtain ⟨v, h1, rfl⟩ := except_map_ok.1 h
      rw [hk]
      exact ⟨rfl, hem.2 v h1⟩

theorem saveable_construct {classes : List ProcClass} {types : List (String × ℕ)} (hr : RegistryOk classes types)
    (hs : ∀ c ∈ classes, c.Stable classes types) {name? : Option PVal} {es : List Entry}
    (hes : ∀ e ∈ es, (∀ w, e.asProc = .ok w → Saveable classes types w) ∧
      (∀ w, e.asProcs = .ok w → ∃ l, w = .list l ∧ ∀ x ∈ l, Saveable classes types x)) {w : PVal}
    (h : fromDict classes types name? es = .ok w) : Saveable classes types w := by
  unfold fromDict at h
  split at h
  · cases h
  · rename_i n
    split at h
    · cases h
    · rename_i cls hcls
      split at h
      · rename_i w' hcon
        cases h
        unfold construct at hcon
        split at hcon
        · cases hcon
        · rename_i c hc
          obtain ⟨qs, hqs, hw⟩ := except_bind_ok.1 hcon
          have hw := except_pure_ok.1 hw
          have hlen := mapM_ok_length hqs
          have hn : c.className = n := by
            have := hr n cls hcls
            rw [hc] at this
            simpa using this
          have hq : ∀ (i : ℕ) (hi : i < c.fields.length), (qs[i]'(hlen ▸ hi)).1 = c.fields[i].name ∧
              FieldSaveable classes types c.fields[i] (qs[i]'(hlen ▸ hi)).2 := by
            intro i hi
            refine saveable_fieldValue (hs c (List.mem_of_getElem? hc)) (List.getElem_mem hi) ?_
              (mapM_ok_getElem hqs i hi (hlen ▸ hi))
            intro e he
            exact hes e (List.mem_filter.1 he).1
          have hz : qs = (c.fields.map ProcField.name).zip (qs.map Prod.snd) := by
            apply List.ext_getElem
            · simp [hlen]
            · intro i h1 h2
              rw [List.getElem_zip, List.getElem_map, List.getElem_map]
              rw [← (hq i (hlen ▸ h1)).1]
          have hq' : ∀ (i : ℕ) (f : ProcField) (v : PVal), c.fields[i]? = some f → (qs.map Prod.snd)[i]? = some v →
              FieldSaveable classes types f v := by
            intro i f v hf hv
            obtain ⟨hi, rfl⟩ := List.getElem?_eq_some_iff.1 hf
            obtain ⟨hi', rfl⟩ := List.getElem?_eq_some_iff.1 hv
            rw [List.getElem_map]
            exact (hq i hi).2
          rw [← hw, hz]
          refine Saveable.mk cls c _ hc (hn ▸ hcls) (by simpa using hlen) ?_ ?_ ?_ ?_
          · intro i f v check hf hv hk
            have := hq' i f v hf hv
            rw [FieldSaveable, hk] at this
            exact this
          · intro i f v hf hv hk
            have := hq' i f v hf hv
            rw [FieldSaveable, hk] at this
            exact this
          · intro i f v hf hv hk
            have := hq' i f v hf hv
            rw [FieldSaveable, hk] at this
            exact ⟨this.choose, this.choose_spec.1⟩
          · intro i f l x hf hv hk hx
            have := hq' i f _ hf hv
            rw [FieldSaveable, hk] at this
            obtain ⟨l', hl, h'⟩ := this
            cases hl
            exact h' x hx
      · cases h
  · cases h

mutual
theorem saveable_validate {classes : List ProcClass} {types : List (String × ℕ)} (hr : RegistryOk classes types)
    (hs : ∀ c ∈ classes, c.Stable classes types) : ∀ (v : PVal), v.IsJson →
      (∀ w, validateProcess classes types v = .ok w → Saveable classes types w) ∧
      (∀ w, validateProcesses classes types v = .ok w → ∃ l, w = .list l ∧ ∀ x ∈ l, Saveable classes types x)
  | .null, _ => And.intro (fun w h => by cases h) (fun w h => by cases h)
  | .bool _, _ => And.intro (fun w h => by cases h) (fun w h => by cases h)
  | .num _, _ => And.intro (fun w h => by cases h) (fun w h => by cases h)
  | .str _, _ => And.intro (fun w h => by cases h) (fun w h => by cases h)
  | .list l, hj => by
      refine And.intro (fun w h => by cases h) (fun w h => ?_)
      rw [PVal.IsJson] at hj
      rw [validateProcesses] at h
      obtain ⟨l', h1, h2⟩ := except_map_ok.1 h
      exact ⟨l', h2.symm, saveable_all hr hs l hj l' h1⟩
  | .dict d, hj => by
      refine And.intro (fun w h => ?_) (fun w h => by cases h)
      rw [PVal.IsJson] at hj
      rw [validateProcess] at h
      exact saveable_construct hr hs (saveable_entries hr hs d hj) h
  | .proc _ _, hj => by rw [PVal.IsJson] at hj; exact hj.elim

theorem saveable_all {classes : List ProcClass} {types : List (String × ℕ)} (hr : RegistryOk classes types)
    (hs : ∀ c ∈ classes, c.Stable classes types) : ∀ (l : List PVal), PVal.AllJson l → ∀ l',
      validateAll classes types l = .ok l' → ∀ x ∈ l', Saveable classes types x
  | [], _ => fun l' h x hx => by
      rw [validateAll] at h
      cases h
      cases hx
  | v :: l, hj => fun l' h x hx => by
      rw [PVal.AllJson] at hj
      rw [validateAll] at h
      obtain ⟨y, h1, h⟩ := except_bind_ok.1 h
      obtain ⟨ys, h2, h⟩ := except_bind_ok.1 h
      have h := except_pure_ok.1 h
      rw [← h] at hx
      rcases List.mem_cons.1 hx with hx | hx
      · rw [hx]; exact (saveable_validate hr hs v hj.1).1 y h1
      · exact saveable_all hr hs l hj.2 ys h2 x hx

theorem saveable_entries {classes : List ProcClass} {types : List (String × ℕ)} (hr : RegistryOk classes types)
    (hs : ∀ c ∈ classes, c.Stable classes types) : ∀ (d : List (String × PVal)), PVal.EntriesJson d →
      ∀ e ∈ validateEntries classes types d, (∀ w, e.asProc = .ok w → Saveable classes types w) ∧
        (∀ w, e.asProcs = .ok w → ∃ l, w = .list l ∧ ∀ x ∈ l, Saveable classes types x)
  | [], _ => fun e he => by rw [validateEntries] at he; cases he
  | (k, v) :: l, hj => fun e he => by
      rw [PVal.EntriesJson] at hj
      rw [validateEntries] at he
      rcases List.mem_cons.1 he with he | he
      · rw [he]; exact saveable_validate hr hs v hj.1
      · exact saveable_entries hr hs l hj.2 e he
end

/-- **C48 (stable)**: a process made from a JSON dictionary can be saved, and is rebuilt from what was saved: validating,
saving and validating again gives the same process. -/
theorem C48_stable (cs : List ProcClass) (hw : ∀ c ∈ cs, c.WellFormed)
    (hs : ∀ c ∈ cs, c.Stable cs (defineAll cs).2) (v w : PVal) (hv : v.IsJson)
    (h : validateProcess cs (defineAll cs).2 v = .ok w) :
    Saveable cs (defineAll cs).2 w ∧ validateProcess cs (defineAll cs).2 w.toDict = .ok w := by
  have hr := C48_registry_consistent cs
  rw [(C48_registry cs).1] at hr
  have := (saveable_validate hr hs v hv).1 w h
  exact ⟨this, C48_rebuilt cs _ hw w this⟩

/-- **C48 (configurations)**: a configuration whose fields are processes that can be saved is the same after it is saved and
made again from what was saved. -/
theorem C48_configuration (classes : List ProcClass) (types : List (String × ℕ)) (hw : ∀ c ∈ classes, c.WellFormed)
    (fields : List ProcField) (hf : (fields.map ProcField.name).Nodup) (vals : List PVal)
    (hlen : vals.length = fields.length)
    (hv : ∀ (i : ℕ) (f : ProcField) (v : PVal), fields[i]? = some f → vals[i]? = some v →
      FieldSaveable classes types f v) :
    makeModel classes types fields (((fields.map ProcField.name).zip vals).map fun q => (q.1, q.2.toDict)) =
      .ok ((fields.map ProcField.name).zip vals) := by
  unfold makeModel
  have hm := mapM_zip (f := fieldValue (validateEntries classes types
      (((fields.map ProcField.name).zip vals).map fun q => (q.1, q.2.toDict)))) (as := fields) (bs := vals)
      (g := fun f v => (f.name, v)) hlen (by
    intro i hi
    unfold fieldValue
    rw [find_entries]
    have hz : ((fields.map ProcField.name).zip vals).map (fun q => (q.1, q.2.toDict)) =
        (fields.map ProcField.name).zip (vals.map PVal.toDict) := by
      rw [List.zip_map_right]
      rfl
    have hfz := find_zip (vals := vals.map PVal.toDict) hf (by simpa using hlen) i (by simpa using hi)
    rw [List.getElem_map] at hfz
    rw [hz, hfz]
    simp only [Option.map_some, List.getElem_map]
    have hok := hv i _ _ (List.getElem?_eq_getElem hi) (List.getElem?_eq_getElem (hlen ▸ hi))
    unfold FieldSaveable at hok
    cases hk : fields[i].kind with
    | plain check => rw [hk] at hok; simp only at hok ⊢; rw [hok]; rfl
    | process => rw [hk] at hok; simp only at hok ⊢; rw [C48_rebuilt classes types hw _ hok]; rfl
    | processes =>
      rw [hk] at hok
      simp only at hok ⊢
      obtain ⟨l, hl, hall⟩ := hok
      rw [hl]
      simp only [PVal.toDict, validateProcesses, validateAll_eq, toDictList_eq]
      have : (l.map PVal.toDict).mapM (validateProcess classes types) = .ok l := by
        clear hl
        induction l with
        | nil => rfl
        | cons x l ih =>
          rw [List.map_cons, List.mapM_cons, C48_rebuilt classes types hw x (hall x (by simp)),
            ih fun y hy => hall y (by simp [hy])]
          rfl
      rw [this]
      rfl)
  rw [hm, List.zip, List.zipWith_map_left]

/-! ## Limits -/

/-- **C48 (limit: the dictionary is consumed)**: validation removes the name from the caller's dictionary, so validating the
same dictionary a second time raises `KeyError`, whatever happened the first time. -/
theorem C48_consumed (classes : List ProcClass) (types : List (String × ℕ)) (d : List (String × PVal)) :
    validateProcess classes types (afterValidate (.dict d)) = .error .key := by
  apply (C48_refusals classes types).2.2.1
  intro h
  obtain ⟨q, hq, hn⟩ := List.mem_map.1 h
  have := (List.mem_filter.1 hq).2
  simp [hn] at this

/-- **C48 (limit: custom names)**: a process given a name of its own is saved under that name: it is refused when read
again, or, when the name is that of another class, never rebuilt as the class it was. -/
theorem C48_custom_names (classes : List ProcClass) (types : List (String × ℕ)) (cls : ℕ) (n : String)
    (vals : List (String × PVal)) :
    (types.lookup n = none →
      validateProcess classes types (PVal.proc cls (("name", .str n) :: vals)).toDict = .error .value) ∧
    (types.lookup n ≠ some cls → ∀ f,
      validateProcess classes types (PVal.proc cls (("name", .str n) :: vals)).toDict ≠ .ok (.proc cls f)) := by
  have hd : (PVal.proc cls (("name", .str n) :: vals)).toDict =
      .dict (("name", .str n) :: PVal.toDictEntries vals) := by
    rw [PVal.toDict, PVal.toDictEntries, PVal.toDict]
  rw [hd]
  constructor
  · intro h
    exact (C48_refusals classes types).2.2.2.1 _ n (nameOf_cons _ _) h
  · intro h f hok
    obtain ⟨cls', c, vs, h1, -, h2, -⟩ := C48_parameters classes types _ n (nameOf_cons _ _) _ hok
    cases h2
    exact h h1

/-- **C48 (limit: any process will do)**: a field of a process type takes a process of any registered class: what a class is
used for is not tested. -/
theorem C48_any_class (classes : List ProcClass) (types : List (String × ℕ)) (f : ProcField) (hk : f.kind = .process)
    (cls : ℕ) (vals : List (String × PVal)) :
    makeModel classes types [f] [(f.name, .proc cls vals)] = .ok [(f.name, .proc cls vals)] := by
  simp [makeModel, fieldValue, validateEntries, validateProcess, hk, Except.map, bind, Except.bind, pure, Except.pure]

/-! ## A concrete registry -/

/-- A check for numbers, which does not convert. -/
def checkNum : PVal → Except Err PVal
  | .num q => .ok (.num q)
  | _ => .error .value

/-- A check for strings. -/
def checkStr : PVal → Except Err PVal
  | .str s => .ok (.str s)
  | _ => .error .value

/-- A reader with a string, a calibrator with a list of readers, and a setup with a number. -/
def demoClasses : List ProcClass :=
  [⟨"Reader", [⟨"extension", .plain checkStr, some (.str ".json")⟩]⟩,
   ⟨"Setup", [⟨"n_levels", .plain checkNum, some (.num 8)⟩, ⟨"fs", .plain checkNum, none⟩]⟩,
   ⟨"Calibrator", [⟨"readers", .processes, none⟩, ⟨"setup", .process, none⟩]⟩,
   ⟨"Setup", [⟨"n_levels", .plain checkNum, some (.num 4)⟩]⟩]

/-- A saved calibrator. -/
def demoSaved : PVal :=
  .dict [("name", .str "Calibrator"), ("readers", .list [.dict [("name", .str "Reader")],
    .dict [("extension", .str ".TXT"), ("name", .str "Reader"), ("unknown", .null)]]), ("setup", .dict [("name", .str "Setup")])]

/-- the calibrator is built with its two readers and the second class called "Setup" -/
theorem demoSaved_validates : validateProcess demoClasses (defineAll demoClasses).2 demoSaved =
    .ok (.proc 2 [("name", .str "Calibrator"),
      ("readers", .list [.proc 0 [("name", .str "Reader"), ("extension", .str ".json")],
        .proc 0 [("name", .str "Reader"), ("extension", .str ".TXT")]]),
      ("setup", .proc 3 [("name", .str "Setup"), ("n_levels", .num 4)])]) := by
  rfl

theorem demoClasses_wellFormed : ∀ c ∈ demoClasses, c.WellFormed := by
  intro c hc
  simp only [demoClasses, List.mem_cons, List.not_mem_nil, or_false] at hc
  rcases hc with rfl | rfl | rfl | rfl <;> simp [ProcClass.WellFormed]

theorem demoClasses_stable : ∀ c ∈ demoClasses, c.Stable demoClasses (defineAll demoClasses).2 := by
  have h1 : ∀ v w, checkNum v = .ok w → checkNum w.toDict = .ok w := by
    intro v w h
    cases v <;> cases h
    rfl
  have h2 : ∀ v w, checkStr v = .ok w → checkStr w.toDict = .ok w := by
    intro v w h
    cases v <;> cases h
    rfl
  intro c hc f hf
  simp only [demoClasses, List.mem_cons, List.not_mem_nil, or_false] at hc
  rcases hc with rfl | rfl | rfl | rfl <;> simp only [List.mem_cons, List.not_mem_nil, or_false] at hf <;>
    rcases hf with rfl | rfl <;>
    refine ⟨fun check hk v w h => ?_, fun d hd => ?_⟩ <;>
    first
    | (cases hk; exact h1 v w h)
    | (cases hk; exact h2 v w h)
    | (cases hd; rfl)
    | cases hk
    | cases hd

/-- the hypotheses of `C48_stable` are met -/
example : ∃ w, validateProcess demoClasses (defineAll demoClasses).2 demoSaved = .ok w ∧
    validateProcess demoClasses (defineAll demoClasses).2 w.toDict = .ok w :=
  ⟨_, demoSaved_validates, (C48_stable demoClasses demoClasses_wellFormed demoClasses_stable demoSaved _
    (by simp [demoSaved, PVal.IsJson, PVal.AllJson, PVal.EntriesJson]) demoSaved_validates).2⟩

end Resistics
