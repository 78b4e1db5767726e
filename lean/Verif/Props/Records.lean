import Verif.Model.Records
import Verif.Props.Registry
import Verif.Props.DateText
import Verif.Lemmas.Except

/-!
# C71: the history says how to repeat the processing
-/

namespace Resistics

/-! ## Specification -/

/-- A time given as a text, or a native date time or timestamp of a year that pandas can represent. -/
def TimeLike.Repeatable : TimeLike → Prop
  | .text _ => True
  | .native t => (∃ c, ofTimestamp t = .ok c) ∧ 1678 ≤ t.year ∧ t.year ≤ 2261
  | .timestamp t => (∃ c, ofTimestamp t = .ok c) ∧ 1678 ≤ t.year ∧ t.year ≤ 2261

/-- The processors that can be repeated: all but custom functions, with fields as pydantic accepts them. -/
def TimeParams.Repeatable : TimeParams → Prop
  | .subsection f t => f.Repeatable ∧ t.Repeatable
  | .decimate factor maxSingle => 1 ≤ factor ∧ 2 ≤ maxSingle
  | .shift s => 0 < s
  | .apply _ => False
  | _ => True

/-- What is asked of pandas: it reads the text of a timestamp it can represent. -/
def RecEnv.ReadsIso (env : RecEnv) : Prop :=
  ∀ t c, ofTimestamp t = .ok c → 1678 ≤ t.year → t.year ≤ 2261 → env.pandas (isoText t) = .ok t

/-- Two records say the same, but for the time. -/
structure Record.SaysTheSame (a b : Record) : Prop where
  creator : a.creator = b.creator
  messages : a.messages = b.messages
  recordType : a.recordType = b.recordType

/-- The classes of the package's time processors among others: defined after `before` and not defined again in `after`. -/
def registryWith (before after : List ProcClass) : List ProcClass := before ++ timeClasses ++ after

/-- See `registryWith`. -/
def NotRedefined (after : List ProcClass) : Prop := ∀ c ∈ after, c.className ∉ timeClasses.map ProcClass.className

/-! ## Lemmas -/

theorem timeClasses_names : (timeClasses.map ProcClass.className).Nodup := by decide

theorem registered_lookup (before after : List ProcClass) (hafter : NotRedefined after) (k : ℕ) (c : ProcClass)
    (hk : timeClasses[k]? = some c) :
    (defineAll (registryWith before after)).2.lookup c.className = some (before.length + k) ∧
    (registryWith before after)[before.length + k]? = some c := by
  obtain ⟨hlt, hget⟩ := List.getElem?_eq_some_iff.1 hk
  have h2 : (registryWith before after)[before.length + k]? = some c := by
    unfold registryWith
    rw [List.append_assoc, List.getElem?_append_right (by omega), List.getElem?_append_left (by simpa using hlt)]
    simpa using hk
  refine ⟨(((C48_registry _).2 _ _).2 ⟨by rw [h2]; rfl, ?_⟩), h2⟩
  intro j hj hjn
  obtain ⟨c', hc', hcn⟩ := Option.map_eq_some_iff.1 hjn
  unfold registryWith at hc'
  rw [List.append_assoc, List.getElem?_append_right (by omega)] at hc'
  by_cases hin : j - before.length < timeClasses.length
  · rw [List.getElem?_append_left hin] at hc'
    have hinj := (List.getElem?_inj (i := j - before.length) (j := k) (by simpa using hin) timeClasses_names).1
      (by rw [List.getElem?_map, List.getElem?_map, hc', hk]; simpa using hcn)
    omega
  · rw [List.getElem?_append_right (by omega)] at hc'
    have hmem := List.mem_of_getElem? hc'
    refine hafter c' hmem ?_
    rw [hcn]
    exact List.mem_map.2 ⟨c, List.mem_of_getElem? hk, rfl⟩

/-- The value of a field made from a JSON dictionary when its type is plain. -/
def plainValue (d : List (String × PVal)) (f : ProcField) (check : PVal → Except Err PVal) : Except Err (String × PVal) :=
  match d.find? fun q => decide (q.1 = f.name) with
  | none => match f.default? with
    | none => .error .value
    | some v => .ok (f.name, v)
  | some q => (check q.2).map fun v => (f.name, v)

theorem fieldValue_plain (classes : List ProcClass) (types : List (String × ℕ)) (d : List (String × PVal)) (f : ProcField)
    (check : PVal → Except Err PVal) (hk : f.kind = .plain check) (hn : f.name ≠ "name") :
    fieldValue ((validateEntries classes types d).filter fun e => e.key ≠ "name") f = plainValue d f check := by
  unfold fieldValue plainValue
  rw [find_unnamed _ _ hn, find_entries]
  cases d.find? fun q => decide (q.1 = f.name) with
  | none => rfl
  | some q => simp only [Option.map_some, hk]

theorem isoText_not_fixed (t : Timestamp) (h : ∃ c, ofTimestamp t = .ok c) : datetimeFromString (isoText t) = .error .value := by
  obtain ⟨c, hc⟩ := h
  unfold ofTimestamp at hc
  rw [checkedTime_some] at hc
  split at hc
  · rename_i hv
    have hv := (valid_iff _).1 hv
    have hd := hv.day_le
    have hd2 := daysInMonth_le t.year t.month
    have hy := hv.year_le
    have hm := hv.month_le
    simp only at hd hy hm
    unfold datetimeFromString isoText
    rw [String.toList_ofList]
    have : readFields (isoChars t) = none := by
      unfold readFields isoChars
      rw [readNumber_pad 4 0 t.year (by omega)]
      simp only [Option.bind_eq_bind, Option.bind_some]
      rw [readField_pad '-' 2 t.month (by omega)]
      simp only [Option.bind_some]
      rw [readField_pad '-' 2 t.day (by omega)]
      simp only [Option.bind_some, readField, readChar]
      rw [if_neg (by decide)]
      rfl
    rw [this]
    rfl
  · cases hc

theorem timeLike_json (env : RecEnv) (hp : env.ReadsIso) (t : TimeLike) (ht : t.Repeatable) :
    ∃ s, t.toJson = .str s ∧ toDatetime env.pandas (.text s) = toDatetime env.pandas t := by
  cases t with
  | text s => exact ⟨s, rfl, rfl⟩
  | native t =>
    obtain ⟨hv, h1, h2⟩ := ht
    refine ⟨_, rfl, ?_⟩
    rw [C47_to_datetime_other _ _ _ (isoText_not_fixed t hv)]
    obtain ⟨c, hc⟩ := hv
    rw [hp t c hc h1 h2]
    rfl
  | timestamp t =>
    obtain ⟨hv, h1, h2⟩ := ht
    refine ⟨_, rfl, ?_⟩
    rw [C47_to_datetime_other _ _ _ (isoText_not_fixed t hv)]
    obtain ⟨c, hc⟩ := hv
    rw [hp t c hc h1 h2]
    rfl

/-- Rebuilding from the creator of a record, for a class with plain fields. -/
theorem rebuild_eq (before after : List ProcClass) (hafter : NotRedefined after) (k : ℕ) (c : ProcClass)
    (hk : timeClasses[k]? = some c) (d fs : List (String × PVal))
    (hfs : c.fields.mapM (fieldValue ((validateEntries (registryWith before after) (defineAll (registryWith before after)).2
      (("name", .str c.className) :: d)).filter fun e => e.key ≠ "name")) = .ok fs) (p : TimeParams)
    (hp : timeParamsOf c.className (("name", .str c.className) :: fs) = some p) :
    rebuild (registryWith before after) (defineAll (registryWith before after)).2 (("name", .str c.className) :: d) =
      .ok ⟨c.className, p⟩ := by
  obtain ⟨h1, h2⟩ := registered_lookup before after hafter k c hk
  unfold rebuild
  rw [validateProcess, nameOf_cons, fromDict]
  simp only [h1]
  unfold construct
  simp only [h2, hfs, bind, Except.bind, pure, Except.pure]
  unfold asTimeObj
  simp only [h2, hp]

theorem wholePart_natCast (n : ℕ) : wholePart (n : ℚ) = n := by
  unfold wholePart
  rw [if_pos (by positivity)]
  simp

theorem checkFloatEntry_nums (d : List (String × ℚ)) :
    (d.map fun q => (q.1, PVal.num q.2)).mapM checkFloatEntry = .ok (d.map fun q => (q.1, PVal.num q.2)) := by
  induction d with
  | nil => rfl
  | cons q d ih =>
    rw [List.map_cons, List.mapM_cons, ih]
    rfl

theorem numEntry_nums (d : List (String × ℚ)) : (d.map fun q => (q.1, PVal.num q.2)).mapM numEntry = some d := by
  induction d with
  | nil => rfl
  | cons q d ih =>
    rw [List.map_cons, List.mapM_cons, ih]
    rfl

theorem checkPerChan_json (p : PerChan) : checkPerChan p.toJson = .ok p.toJson := by
  cases p with
  | scalar x => rfl
  | dict d =>
    unfold PerChan.toJson checkPerChan
    simp only [checkFloatEntry_nums]
    rfl

theorem perChanField_json (p : PerChan) (v : PVal) (k : String) (hk : k ≠ "name") :
    perChanField [("name", v), (k, p.toJson)] k = some p := by
  unfold perChanField
  have : List.lookup k [("name", v), (k, p.toJson)] = some p.toJson := by
    have hne : (k == "name") = false := by simpa using hk
    simp [List.lookup, hne]
  rw [this]
  cases p with
  | scalar x => rfl
  | dict d =>
    unfold PerChan.toJson
    simp only [numEntry_nums]
    rfl

theorem checkOptFloat_json (b : Option ℚ) : checkOptFloat (optJson b) = .ok (optJson b) := by cases b <;> rfl

theorem rebuilt (env : RecEnv) (hp : env.ReadsIso) (before after : List ProcClass) (hafter : NotRedefined after)
    (p : TimeParams) (hr : p.Repeatable) :
    ∃ d p', p.toJson env = .ok d ∧
      rebuild (registryWith before after) (defineAll (registryWith before after)).2 (("name", .str p.className) :: d) =
        .ok ⟨p.className, p'⟩ ∧
      p'.className = p.className ∧ p'.toProc env = p.toProc env ∧ p'.toJson env = .ok d := by
  have fv := fieldValue_plain (registryWith before after) (defineAll (registryWith before after)).2
  cases p with
  | subsection f t =>
    obtain ⟨s, hs, hsd⟩ := timeLike_json env hp f hr.1
    obtain ⟨u, hu, hud⟩ := timeLike_json env hp t hr.2
    refine ⟨_, .subsection (.text s) (.text u), rfl,
      rebuild_eq before after hafter 0 _ rfl _ [("from_time", .str s), ("to_time", .str u)] ?_ _ ?_, rfl, ?_, ?_⟩
    · rw [hs, hu]
      simp only [List.mapM_cons, List.mapM_nil]
      rw [fv _ _ _ rfl (by decide), fv _ _ _ rfl (by decide)]
      rfl
    · rfl
    · simp only [TimeParams.toProc, hsd, hud]
    · simp only [TimeParams.toJson, hs, hu]
      rfl
  | interpolateNans =>
    exact ⟨_, _, rfl, rebuild_eq before after hafter 1 _ rfl _ [] rfl _ rfl, rfl, rfl, rfl⟩
  | removeMean =>
    exact ⟨_, _, rfl, rebuild_eq before after hafter 2 _ rfl _ [] rfl _ rfl, rfl, rfl, rfl⟩
  | add q =>
    refine ⟨_, .add q, rfl, rebuild_eq before after hafter 3 _ rfl _ [("add", q.toJson)] ?_ _ ?_, rfl, rfl, rfl⟩
    · simp only [List.mapM_cons, List.mapM_nil]
      rw [fv _ _ _ rfl (by decide)]
      have : plainValue [("name", PVal.str "Add"), ("add", q.toJson)] ⟨"add", .plain checkPerChan, none⟩ checkPerChan =
          (checkPerChan q.toJson).map fun v => ("add", v) := rfl
      exact this ▸ by rw [checkPerChan_json]; rfl
    · show (perChanField [("name", _), ("add", q.toJson)] "add").map TimeParams.add = _
      rw [perChanField_json q _ _ (by decide)]
      rfl
  | multiply q =>
    refine ⟨_, .multiply q, rfl, rebuild_eq before after hafter 4 _ rfl _ [("multiplier", q.toJson)] ?_ _ ?_, rfl, rfl, rfl⟩
    · simp only [List.mapM_cons, List.mapM_nil]
      rw [fv _ _ _ rfl (by decide)]
      have : plainValue [("name", PVal.str "Multiply"), ("multiplier", q.toJson)] ⟨"multiplier", .plain checkPerChan, none⟩
          checkPerChan = (checkPerChan q.toJson).map fun v => ("multiplier", v) := rfl
      exact this ▸ by rw [checkPerChan_json]; rfl
    · show (perChanField [("name", _), ("multiplier", q.toJson)] "multiplier").map TimeParams.multiply = _
      rw [perChanField_json q _ _ (by decide)]
      rfl
  | lowPass c o =>
    refine ⟨_, .lowPass c o, rfl, rebuild_eq before after hafter 5 _ rfl _ [("cutoff", .num c), ("order", .num o)] ?_ _ ?_,
      rfl, rfl, rfl⟩
    · simp only [List.mapM_cons, List.mapM_nil]
      rw [fv _ _ _ rfl (by decide), fv _ _ _ rfl (by decide)]
      simp [plainValue, TimeParams.className, checkFloat, checkInt, wholePart_natCast, Except.map, bind, Except.bind, pure, Except.pure]
    · simp [timeParamsOf, numField, natField, List.lookup]
  | highPass c o =>
    refine ⟨_, .highPass c o, rfl, rebuild_eq before after hafter 6 _ rfl _ [("cutoff", .num c), ("order", .num o)] ?_ _ ?_,
      rfl, rfl, rfl⟩
    · simp only [List.mapM_cons, List.mapM_nil]
      rw [fv _ _ _ rfl (by decide), fv _ _ _ rfl (by decide)]
      simp [plainValue, TimeParams.className, checkFloat, checkInt, wholePart_natCast, Except.map, bind, Except.bind, pure, Except.pure]
    · simp [timeParamsOf, numField, natField, List.lookup]
  | bandPass l h o =>
    refine ⟨_, .bandPass l h o, rfl, rebuild_eq before after hafter 7 _ rfl _
      [("cutoff_low", .num l), ("cutoff_high", .num h), ("order", .num o)] ?_ _ ?_, rfl, rfl, rfl⟩
    · simp only [List.mapM_cons, List.mapM_nil]
      rw [fv _ _ _ rfl (by decide), fv _ _ _ rfl (by decide), fv _ _ _ rfl (by decide)]
      simp [plainValue, TimeParams.className, checkFloat, checkInt, wholePart_natCast, Except.map, bind, Except.bind, pure, Except.pure]
    · simp [timeParamsOf, numField, natField, List.lookup]
  | notch f b o =>
    refine ⟨_, .notch f b o, rfl, rebuild_eq before after hafter 8 _ rfl _
      [("notch", .num f), ("band", optJson b), ("order", .num o)] ?_ _ ?_, rfl, rfl, rfl⟩
    · simp only [List.mapM_cons, List.mapM_nil]
      rw [fv _ _ _ rfl (by decide), fv _ _ _ rfl (by decide), fv _ _ _ rfl (by decide)]
      simp [plainValue, TimeParams.className, checkFloat, checkInt, checkOptFloat_json, wholePart_natCast, Except.map, bind,
        Except.bind, pure, Except.pure]
    · cases b <;> simp [timeParamsOf, numField, natField, optField, optJson, List.lookup]
  | resample f =>
    refine ⟨_, .resample f, rfl, rebuild_eq before after hafter 9 _ rfl _ [("new_fs", .num f)] ?_ _ ?_, rfl, rfl, rfl⟩
    · simp only [List.mapM_cons, List.mapM_nil]
      rw [fv _ _ _ rfl (by decide)]
      rfl
    · rfl
  | decimate f m =>
    refine ⟨_, .decimate f m, rfl, rebuild_eq before after hafter 10 _ rfl _
      [("factor", .num f), ("max_single_factor", .num m)] ?_ _ ?_, rfl, rfl, rfl⟩
    · simp only [List.mapM_cons, List.mapM_nil]
      rw [fv _ _ _ rfl (by decide), fv _ _ _ rfl (by decide)]
      have h1 : (1 : ℚ) ≤ f := by exact_mod_cast hr.1
      have h2 : (2 : ℚ) ≤ m := by exact_mod_cast hr.2
      simp [plainValue, TimeParams.className, checkIntGe, atLeast, checkInt, wholePart_natCast, Except.map, bind, Except.bind, pure,
        Except.pure, h1, h2, hr.1]
    · simp [timeParamsOf, numField, natField, List.lookup]
  | shift s =>
    refine ⟨_, .shift s, rfl, rebuild_eq before after hafter 11 _ rfl _ [("shift", .num s)] ?_ _ ?_, rfl, rfl, rfl⟩
    · simp only [List.mapM_cons, List.mapM_nil]
      rw [fv _ _ _ rfl (by decide)]
      have h1 : 0 < s := hr
      simp [plainValue, TimeParams.className, checkPositive, positive, checkFloat, Except.map, bind, Except.bind, pure, Except.pure, h1]
    · rfl
  | apply f => exact absurd hr id

theorem run_ok {env : RecEnv} {now : Clock} {o : TimeObj} {r out : Recorded} (h : o.run env now r = .ok out) :
    ∃ p creator, o.params.toProc env = .ok p ∧ p.run env.sp r.data = .ok out.data ∧ o.parameters env = .ok creator ∧
      out.records = r.records ++ [⟨now.localNow, now.utcNow, creator, env.messages p r.data, "process"⟩] := by
  unfold TimeObj.run at h
  obtain ⟨p, hp, h⟩ := except_bind_ok.1 h
  obtain ⟨d, hd, h⟩ := except_bind_ok.1 h
  obtain ⟨c, hc, h⟩ := except_bind_ok.1 h
  cases h
  exact ⟨p, c, hp, hd, hc, rfl⟩

theorem run_of {env : RecEnv} {now : Clock} {o : TimeObj} {r : Recorded} {p : Proc} {d : TimeData ℚ}
    {creator : List (String × PVal)} (hp : o.params.toProc env = .ok p) (hd : p.run env.sp r.data = .ok d)
    (hc : o.parameters env = .ok creator) :
    o.run env now r = .ok ⟨d, r.records ++ [⟨now.localNow, now.utcNow, creator, env.messages p r.data, "process"⟩]⟩ := by
  unfold TimeObj.run
  simp only [hp, hd, hc, bind, Except.bind]
  rfl

theorem described_json {describe : (List ℚ → List ℚ) → Except Err String} (fncs : List (String × (List ℚ → List ℚ)))
    (l : List (String × PVal)) (hl : fncs.mapM (describeStep describe) = .ok l) : PVal.EntriesJson l := by
  induction fncs generalizing l with
  | nil => cases hl; simp [PVal.EntriesJson]
  | cons q fncs ih =>
    rw [List.mapM_cons] at hl
    obtain ⟨a, ha, hl⟩ := except_bind_ok.1 hl
    obtain ⟨l', hl', hl⟩ := except_bind_ok.1 hl
    cases hl
    unfold describeStep at ha
    split at ha
    · cases ha
      simp only [PVal.EntriesJson, PVal.IsJson, true_and]
      exact ih l' hl'
    · cases ha

theorem described_all {describe : (List ℚ → List ℚ) → Except Err String} (fncs : List (String × (List ℚ → List ℚ)))
    (l : List (String × PVal)) (hl : fncs.mapM (describeStep describe) = .ok l) (q : String × (List ℚ → List ℚ)) (hq : q ∈ fncs) :
    ∃ s, describe q.2 = .ok s := by
  induction fncs generalizing l with
  | nil => cases hq
  | cons x fncs ih =>
    rw [List.mapM_cons] at hl
    obtain ⟨a, ha, hl⟩ := except_bind_ok.1 hl
    obtain ⟨l', hl', hl⟩ := except_bind_ok.1 hl
    rcases List.mem_cons.1 hq with rfl | hq
    · unfold describeStep at ha
      split at ha
      · exact ⟨_, by assumption⟩
      · cases ha
    · exact ih l' hl' hq

/-! ## C71 -/

/-- **C71 (record)**: a processor that ran added one record to the history, at the end: the time shown by the clocks, its name
and all its parameters as JSON values, its messages, and the type "process". -/
theorem C71_record (env : RecEnv) (now : Clock) (o : TimeObj) (r out : Recorded) (h : o.run env now r = .ok out) :
    ∃ rec, out.records = r.records ++ [rec] ∧ rec.timeLocal = now.localNow ∧ rec.timeUtc = now.utcNow ∧
      rec.recordType = "process" ∧ rec.creator.lookup "name" = some (.str o.name) ∧ (PVal.dict rec.creator).IsJson ∧
      o.parameters env = .ok rec.creator := by
  obtain ⟨p, c, -, -, hc, hr⟩ := run_ok h
  refine ⟨_, hr, rfl, rfl, rfl, ?_, ?_, hc⟩
  · unfold TimeObj.parameters at hc
    obtain ⟨d, -, hc⟩ := except_bind_ok.1 hc
    cases hc
    simp [List.lookup]
  · unfold TimeObj.parameters at hc
    obtain ⟨d, hd, hc⟩ := except_bind_ok.1 hc
    cases hc
    simp only [PVal.IsJson, PVal.EntriesJson, true_and]
    have htime : ∀ t : TimeLike, t.toJson.IsJson := fun t => by cases t <;> simp [TimeLike.toJson, PVal.IsJson]
    have hdict : ∀ l : List (String × ℚ), PVal.EntriesJson (l.map fun q => (q.1, PVal.num q.2)) := by
      intro l
      induction l with
      | nil => simp [PVal.EntriesJson]
      | cons q l ih => simp only [List.map_cons, PVal.EntriesJson, PVal.IsJson, true_and]; exact ih
    have hper : ∀ q : PerChan, q.toJson.IsJson := by
      intro q
      cases q with
      | scalar x => simp [PerChan.toJson, PVal.IsJson]
      | dict l => simp only [PerChan.toJson, PVal.IsJson]; exact hdict l
    have hopt : ∀ q : Option ℚ, (optJson q).IsJson := fun q => by cases q <;> simp [optJson, PVal.IsJson]
    cases hps : o.params with
    | apply fncs =>
      rw [hps, TimeParams.toJson] at hd
      obtain ⟨l, hl, hd⟩ := except_bind_ok.1 hd
      cases hd
      simp only [PVal.EntriesJson, PVal.IsJson, and_true]
      exact described_json fncs l hl
    | _ =>
      rw [hps] at hd
      cases hd
      simp [PVal.EntriesJson, htime, hper, hopt, PVal.IsJson]

/-- **C71 (names)**: a processor is named after its class, unless it is given a name. -/
theorem C71_name (p : TimeParams) (n : String) : (mkTimeObj none p).name = p.className ∧ (mkTimeObj (some n) p).name = n :=
  ⟨rfl, rfl⟩

/-- **C71 (rebuilt)**: whatever other classes are registered (unless one takes the name of a time processor), what a processor
writes into its record is enough to make a processor that does the same: on any data it gives the same result or raises the
same exception, and writes the same record. -/
theorem C71_rebuilt (env : RecEnv) (hp : env.ReadsIso) (before after : List ProcClass) (hafter : NotRedefined after)
    (p : TimeParams) (hr : p.Repeatable) :
    ∃ creator o, (mkTimeObj none p).parameters env = .ok creator ∧
      rebuild (registryWith before after) (defineAll (registryWith before after)).2 creator = .ok o ∧
      o.name = p.className ∧ o.params.className = p.className ∧
      ∀ now r, o.run env now r = (mkTimeObj none p).run env now r := by
  obtain ⟨d, p', hd, hb, hcl, hproc, hd'⟩ := rebuilt env hp before after hafter p hr
  have h1 : (mkTimeObj none p).parameters env = .ok (("name", .str p.className) :: d) := by
    unfold TimeObj.parameters mkTimeObj
    simp only [hd, bind, Except.bind]
    rfl
  have h2 : (⟨p.className, p'⟩ : TimeObj).parameters env = .ok (("name", .str p.className) :: d) := by
    unfold TimeObj.parameters
    simp only [hd', bind, Except.bind]
    rfl
  refine ⟨_, _, h1, hb, rfl, hcl, fun now r => ?_⟩
  unfold TimeObj.run
  rw [h1, h2, hproc]
  rfl

/-- **C71 (replay)**: after any sequence of processors, the records they added to the history, rebuilt and run in order on the
data from before, give the data once more, and add records that say the same. -/
theorem C71_replay (env : RecEnv) (hp : env.ReadsIso) (before after : List ProcClass) (hafter : NotRedefined after)
    (ps : List (Clock × TimeParams)) (hr : ∀ q ∈ ps, q.2.Repeatable) (r out : Recorded)
    (h : runObjs env (ps.map fun q => (q.1, mkTimeObj none q.2)) r = .ok out) :
    ∃ new : List Record, out.records = r.records ++ new ∧ new.length = ps.length ∧
      ∀ (clocks : List Clock) (others : List Record), clocks.length = new.length →
        ∃ again, replay env (registryWith before after) (defineAll (registryWith before after)).2 (clocks.zip new)
            ⟨r.data, others⟩ = .ok ⟨out.data, others ++ again⟩ ∧ List.Forall₂ Record.SaysTheSame new again := by
  induction ps generalizing r with
  | nil =>
    cases h
    refine ⟨[], by simp, rfl, fun clocks others hl => ⟨[], ?_, .nil⟩⟩
    simp [replay, pure, Except.pure]
  | cons q ps ih =>
    unfold runObjs at h
    rw [List.map_cons, List.foldlM_cons] at h
    obtain ⟨r1, hr1, h⟩ := except_bind_ok.1 h
    obtain ⟨new, hnew, hlen, hreplay⟩ := ih (fun x hx => hr x (List.mem_cons_of_mem _ hx)) r1 h
    obtain ⟨p, c, hproc, hrun, hpar, hrec⟩ := run_ok hr1
    obtain ⟨c', o, hpar', hbuild, -, -, hsame⟩ := C71_rebuilt env hp before after hafter q.2 (hr q (by simp))
    have hcc : c' = c := by
      have := hpar'.symm.trans hpar
      cases this
      rfl
    subst hcc
    refine ⟨⟨q.1.localNow, q.1.utcNow, c', env.messages p r.data, "process"⟩ :: new, ?_, by simp [hlen], ?_⟩
    · rw [hnew, hrec]
      simp
    · intro clocks others hl
      cases clocks with
      | nil => simp at hl
      | cons now clocks =>
        obtain ⟨again, hag, hf⟩ := hreplay clocks
          (others ++ [⟨now.localNow, now.utcNow, c', env.messages p r.data, "process"⟩]) (by simpa using hl)
        refine ⟨⟨now.localNow, now.utcNow, c', env.messages p r.data, "process"⟩ :: again, ?_,
          .cons ⟨rfl, rfl, rfl⟩ hf⟩
        unfold replay at hag ⊢
        rw [List.zip_cons_cons, List.foldlM_cons]
        have : replayStep env (registryWith before after) (defineAll (registryWith before after)).2 ⟨r.data, others⟩
            (now, ⟨q.1.localNow, q.1.utcNow, c', env.messages p r.data, "process"⟩) =
            .ok ⟨r1.data, others ++ [⟨now.localNow, now.utcNow, c', env.messages p r.data, "process"⟩]⟩ := by
          unfold replayStep
          simp only [hbuild, bind, Except.bind, hsame]
          exact run_of hproc hrun hpar
        rw [this]
        simp only [bind, Except.bind]
        rw [List.append_assoc, List.singleton_append] at hag
        exact hag

/-- **C71 (files)**: a record read from a file is the record that was written, if its times can be read. -/
theorem C71_file (readIso : String → Except Err Timestamp) (now : Clock) (r : Record)
    (hl : readIso (isoText r.timeLocal) = .ok r.timeLocal) (hu : readIso (isoText r.timeUtc) = .ok r.timeUtc) :
    recordOfJson readIso now r.toJson = .ok r := by
  have hm : ∀ l : List String, (l.map PVal.str).mapM jsonText = .ok l := by
    intro l
    induction l with
    | nil => rfl
    | cons s l ih => rw [List.map_cons, List.mapM_cons, ih]; rfl
  simp [recordOfJson, Record.toJson, jsonDict, jsonTime, jsonField, jsonTexts, jsonText, List.lookup, hl, hu, hm, bind,
    Except.bind, pure, Except.pure]

/-- **C71 (files)**: a record that was written without times has those of the clocks. -/
theorem C71_file_without_times (readIso : String → Except Err Timestamp) (now : Clock) (creator : List (String × PVal))
    (messages : List String) (t : String) :
    recordOfJson readIso now (.dict [("creator", .dict creator), ("messages", .list (messages.map .str)), ("record_type", .str t)]) =
      .ok ⟨now.localNow, now.utcNow, creator, messages, t⟩ := by
  have hm : ∀ l : List String, (l.map PVal.str).mapM jsonText = .ok l := by
    intro l
    induction l with
    | nil => rfl
    | cons s l ih => rw [List.map_cons, List.mapM_cons, ih]; rfl
  simp [recordOfJson, jsonDict, jsonTime, jsonField, jsonTexts, jsonText, List.lookup, hm, bind, Except.bind, pure, Except.pure]

/-- **C71 (made by hand)**: a record made with `get_record` has the type and the times that are given, and otherwise the type
"process" and the times of the clocks. -/
theorem C71_get_record (now : Clock) (c : List (String × PVal)) (ms : List String) (type : String) (utc loc : Timestamp) :
    getRecord now c (.many ms) type (some utc) (some loc) = ⟨loc, utc, c, ms, type⟩ ∧
    getRecord now c (.many ms) = ⟨now.localNow, now.utcNow, c, ms, "process"⟩ := ⟨rfl, rfl⟩

/-- **C71 (fields)**: the fields of a subsection are its first and its last time, read when it is run; those of a decimation are the
factor and the greatest factor of a single step. -/
theorem C71_fields (env : RecEnv) (now : Clock) (r out : Recorded) :
    (∀ f t cf ct, toDatetime env.pandas f = .ok cf → toDatetime env.pandas t = .ok ct →
      (mkTimeObj none (.subsection f t)).run env now r = .ok out →
      subsection (env.instant cf) (env.instant ct) r.data = .ok out.data) ∧
    ∀ factor maxSingle : ℕ, (mkTimeObj none (.decimate factor maxSingle)).run env now r = .ok out →
      decimateProc env.sp maxSingle factor r.data = .ok out.data := by
  refine ⟨fun f t cf ct hf ht h => ?_, fun factor maxSingle h => ?_⟩
  · obtain ⟨p, c, hp, hrun, -, -⟩ := run_ok h
    simp only [mkTimeObj, TimeParams.toProc, hf, ht, bind, Except.bind] at hp
    cases hp
    exact hrun
  · obtain ⟨p, c, hp, hrun, -, -⟩ := run_ok h
    cases hp
    exact hrun

/-- **C71 (histories)**: `get_history` record by record, starting with none, makes the history of exactly these records in
order; a message that is not in a list is a list of one. -/
theorem C71_history (rs : List Record) (r : Record) (now : Clock) (c : List (String × PVal)) (s : String) :
    (rs ++ [r]).foldl (fun h x => some (getHistory x h)) none = some (rs ++ [r]) ∧
    (getRecord now c (.one s)).messages = [s] ∧ (getRecord now c (.one s)).recordType = "process" := by
  refine ⟨?_, rfl, rfl⟩
  induction rs using List.reverseRecOn generalizing r with
  | nil => rfl
  | append_singleton rs x ih =>
    rw [List.foldl_append, ih x]
    rfl

/-! ## Limits -/

/-- **C71 (limit: other names)**: the record of a processor with a name that no class has cannot be used. -/
theorem C71_other_name (env : RecEnv) (classes : List ProcClass) (o : TimeObj) (creator : List (String × PVal))
    (hn : (defineAll classes).2.lookup o.name = none) (hc : o.parameters env = .ok creator) :
    rebuild classes (defineAll classes).2 creator = .error .value := by
  unfold TimeObj.parameters at hc
  obtain ⟨d, -, hc⟩ := except_bind_ok.1 hc
  cases hc
  unfold rebuild
  rw [(C48_refusals _ _).2.2.2.1 _ _ (nameOf_cons _ _) hn]
  rfl

/-- **C71 (limit: names of other classes)**: a low pass filter that is named "HighPass" comes back as a high pass filter, without an
error. -/
theorem C71_wrong_name (env : RecEnv) (before after : List ProcClass) (hafter : NotRedefined after) (cutoff : ℚ) (order : ℕ) :
    ∃ creator, (mkTimeObj (some "HighPass") (.lowPass cutoff order)).parameters env = .ok creator ∧
      rebuild (registryWith before after) (defineAll (registryWith before after)).2 creator =
        .ok (mkTimeObj none (.highPass cutoff order)) := by
  refine ⟨_, rfl, ?_⟩
  refine rebuild_eq before after hafter 6 _ rfl _ [("cutoff", .num cutoff), ("order", .num order)] ?_ _ ?_
  · simp only [List.mapM_cons, List.mapM_nil]
    rw [fieldValue_plain _ _ _ _ _ rfl (by decide), fieldValue_plain _ _ _ _ _ rfl (by decide)]
    simp [plainValue, checkFloat, checkInt, wholePart_natCast, Except.map, bind, Except.bind, pure, Except.pure]
  · simp [timeParamsOf, numField, natField, List.lookup]

/-- **C71 (limit: custom functions)**: the record of a processor that applies custom functions cannot be used. -/
theorem C71_custom_functions (env : RecEnv) (before after : List ProcClass) (hafter : NotRedefined after)
    (fncs : List (String × (List ℚ → List ℚ))) (hne : fncs ≠ []) (creator : List (String × PVal))
    (hc : (mkTimeObj none (.apply fncs)).parameters env = .ok creator) :
    rebuild (registryWith before after) (defineAll (registryWith before after)).2 creator = .error .value := by
  unfold TimeObj.parameters mkTimeObj TimeParams.toJson at hc
  obtain ⟨d, hd, hc⟩ := except_bind_ok.1 hc
  cases hc
  obtain ⟨l, hl, hd⟩ := except_bind_ok.1 hd
  cases hd
  have hlne : l ≠ [] := by
    rintro rfl
    have := mapM_ok_length hl
    exact hne (List.eq_nil_of_length_eq_zero (by simpa using this.symm))
  obtain ⟨h1, h2⟩ := registered_lookup before after hafter 12 _ rfl
  unfold rebuild
  rw [validateProcess, nameOf_cons, fromDict]
  have hname : (Option.getD none (TimeParams.apply fncs).className) = "ApplyFunction" := rfl
  rw [hname]
  simp only [h1]
  unfold construct
  simp only [h2, List.mapM_cons, List.mapM_nil]
  rw [fieldValue_plain _ _ _ _ _ rfl (by decide)]
  cases l with
  | nil => exact absurd rfl hlne
  | cons q l => rfl

/-- **C71 (limit: custom functions)**: a function that cannot be described in the record (one that is not written in Python, or
that fails on the three samples it is tried on) cannot be used at all: the processor raises an exception after it has computed the
data. -/
theorem C71_undescribed (env : RecEnv) (fncs : List (String × (List ℚ → List ℚ))) (q : String × (List ℚ → List ℚ))
    (hq : q ∈ fncs) (e : Err) (he : env.describe q.2 = .error e) (n : Option String) (now : Clock) (r : Recorded) :
    ∃ e, (mkTimeObj n (.apply fncs)).run env now r = .error e := by
  cases h : (mkTimeObj n (.apply fncs)).run env now r with
  | error e => exact ⟨e, rfl⟩
  | ok out =>
    exfalso
    obtain ⟨p, c, -, -, hc, -⟩ := run_ok h
    unfold TimeObj.parameters mkTimeObj TimeParams.toJson at hc
    obtain ⟨d, hd, hc⟩ := except_bind_ok.1 hc
    obtain ⟨l, hl, hd⟩ := except_bind_ok.1 hd
    obtain ⟨s, hs⟩ := described_all fncs l hl q hq
    rw [he] at hs
    cases hs

/-- **C71 (limit: records are used up)**: rebuilding a processor from a record of a history takes the name out of the record: the
same record cannot be used a second time, and what is written to a file afterwards does not say which processor ran. -/
theorem C71_used_up (classes : List ProcClass) (types : List (String × ℕ)) (r : Record) :
    rebuild classes types r.used.creator = .error .key ∧ r.used.creator.lookup "name" = none := by
  constructor
  · unfold rebuild
    have := C48_consumed classes types r.creator
    unfold afterValidate at this
    unfold Record.used
    rw [this]
    rfl
  · rw [List.lookup_eq_none_iff]
    intro q hq
    have := (List.mem_filter.1 hq).2
    have hne : q.1 ≠ "name" := by simpa using this
    exact bne_iff_ne.2 (Ne.symm hne)

/-- **C71 (limit: years that pandas cannot represent)**: a subsection from a native date time runs, but the text in its record is left
to pandas, so that when pandas cannot read it, the rebuilt processor raises a `ValueError` on any data. -/
theorem C71_far_years (env : RecEnv) (before after : List ProcClass) (hafter : NotRedefined after) (t : Timestamp)
    (hv : ∃ c, ofTimestamp t = .ok c) (hpd : env.pandas (isoText t) = .error .value) (last : String) (u : CalTime)
    (hto : toDatetime env.pandas (.text last) = .ok u) :
    (∃ p, (mkTimeObj none (.subsection (.native t) (.text last))).params.toProc env = .ok p) ∧
    ∃ creator o, (mkTimeObj none (.subsection (.native t) (.text last))).parameters env = .ok creator ∧
      rebuild (registryWith before after) (defineAll (registryWith before after)).2 creator = .ok o ∧
      ∀ now r, o.run env now r = .error .value := by
  obtain ⟨c, hc⟩ := hv
  refine ⟨⟨.subsection (env.instant c) (env.instant u), ?_⟩, ?_⟩
  · simp only [mkTimeObj, TimeParams.toProc, hto, bind, Except.bind]
    have : toDatetime env.pandas (.native t) = .ok c := hc
    rw [this]
    rfl
  · refine ⟨_, ⟨"Subsection", .subsection (.text (isoText t)) (.text last)⟩, rfl,
      rebuild_eq before after hafter 0 _ rfl _ [("from_time", .str (isoText t)), ("to_time", .str last)] ?_ _ rfl, ?_⟩
    · simp only [List.mapM_cons, List.mapM_nil]
      rw [fieldValue_plain _ _ _ _ _ rfl (by decide), fieldValue_plain _ _ _ _ _ rfl (by decide)]
      rfl
    · intro now r
      unfold TimeObj.run TimeParams.toProc
      simp only
      rw [C47_to_datetime_other _ _ _ (isoText_not_fixed t ⟨c, hc⟩), hpd]
      rfl

/-! ## A concrete history -/

/-- The part of an ISO text after the seconds. -/
def readIsoFraction : List Char → Option (ℕ × ℕ)
  | [] => some (0, 0)
  | c :: cs => if c = '.' then
      (readNumber 6 0 cs).bind fun p => if p.2 = [] then some (p.1, 0) else (readNumber 3 0 p.2).map fun q => (p.1, q.1)
    else none

/-- A reader of ISO texts. -/
def readIsoChars (cs : List Char) : Option Timestamp := do
  let (year, cs) ← readNumber 4 0 cs
  let (month, cs) ← readField '-' 2 cs
  let (day, cs) ← readField '-' 2 cs
  let (hour, cs) ← readField 'T' 2 cs
  let (minute, cs) ← readField ':' 2 cs
  let (second, cs) ← readField ':' 2 cs
  let (micro, nano) ← readIsoFraction cs
  return { year, month, day, hour, minute, second, microsecond := micro, nanosecond := nano }

theorem padDigits_length (w n : ℕ) : (padDigits w n).length = w := by
  induction w generalizing n with
  | zero => rfl
  | succ w ih => simp [padDigits, ih]

theorem readIso_isoChars (t : Timestamp) (c : CalTime) (hc : ofTimestamp t = .ok c) : readIsoChars (isoChars t) = some t := by
  unfold ofTimestamp at hc
  rw [checkedTime_some] at hc
  split at hc
  · rename_i hv
    have hv := (valid_iff _).1 hv
    have hd := hv.day_le
    have hd2 := daysInMonth_le t.year t.month
    have hy := hv.year_le
    have hm := hv.month_le
    have hh := hv.hour_lt
    have hmi := hv.minute_lt
    have hs := hv.second_lt
    have hu := hv.micro_lt
    have hn : t.nanosecond < 1000 := by
      have h : (t.nanosecond : ℚ) < 1000 := hv.nano_lt
      exact_mod_cast h
    simp only at hd hy hm hh hmi hs hu
    unfold readIsoChars isoChars
    rw [readNumber_pad 4 0 t.year (by omega)]
    simp only [Option.bind_eq_bind, Option.bind_some]
    rw [readField_pad '-' 2 t.month (by omega)]
    simp only [Option.bind_some]
    rw [readField_pad '-' 2 t.day (by omega)]
    simp only [Option.bind_some]
    rw [readField_pad 'T' 2 t.hour (by omega)]
    simp only [Option.bind_some]
    rw [readField_pad ':' 2 t.minute (by omega)]
    simp only [Option.bind_some]
    rw [List.append_assoc, readField_pad ':' 2 t.second (by omega)]
    simp only [Option.bind_some]
    have hfrac : readIsoFraction ((if t.microsecond = 0 ∧ t.nanosecond = 0 then [] else '.' :: padDigits 6 t.microsecond) ++
        (if t.nanosecond = 0 then [] else padDigits 3 t.nanosecond)) = some (t.microsecond, t.nanosecond) := by
      by_cases h0 : t.nanosecond = 0
      · by_cases h1 : t.microsecond = 0
        · simp [h0, h1, readIsoFraction]
        · rw [if_neg (by simp [h1]), if_pos h0, List.cons_append]
          simp only [readIsoFraction, if_true]
          rw [readNumber_pad 6 0 _ (by omega)]
          simp [h0]
      · rw [if_neg (by simp [h0]), if_neg h0, List.cons_append]
        simp only [readIsoFraction, if_true]
        rw [readNumber_pad 6 0 _ (by omega)]
        simp only [Option.bind_some]
        rw [if_neg (by intro h; have := congrArg List.length h; rw [padDigits_length] at this; simp at this)]
        have := readNumber_pad 3 0 t.nanosecond (by omega) []
        rw [List.append_nil] at this
        rw [this]
        simp
    rw [hfrac]
    simp
  · cases hc

/-- **C71**. The text of a time in a record says everything about it, to the nanosecond: different times have different texts. -/
theorem C71_time_texts_distinct (t t' : Timestamp) (c c' : CalTime) (hc : ofTimestamp t = .ok c) (hc' : ofTimestamp t' = .ok c')
    (h : isoText t = isoText t') : t = t' := by
  have e : isoChars t = isoChars t' := by
    have := congrArg String.toList h
    unfold isoText at this
    rwa [String.toList_ofList, String.toList_ofList] at this
  have h1 := readIso_isoChars t c hc
  rw [e, readIso_isoChars t' c' hc'] at h1
  exact (Option.some.inj h1).symm

example : isoText { year := 2020, month := 1, day := 1 } ≠ isoText { year := 2020, month := 1, day := 1, nanosecond := 1 } := by decide +kernel

/-- An environment with a reader of ISO texts instead of pandas, and filters that do nothing. -/
def demoRecEnv : RecEnv where
  pandas s := match readIsoChars s.toList with
    | some t => .ok t
    | none => .error .value
  instant c := c.instant
  sp := { sosfilt := fun _ _ _ row => .ok row, decimate := fun _ row => .ok row, resample := fun _ _ row => row, limitDen := id }
  junk _ _ := 0
  describe f := .ok (toString (f [0, 1, 2]))
  messages p _ := ["Ran " ++ p.name]

theorem demoRecEnv_reads : demoRecEnv.ReadsIso := by
  intro t c hc _ _
  show (match readIsoChars (isoText t).toList with
    | some t => Except.ok t
    | none => Except.error Err.value) = _
  unfold isoText
  rw [String.toList_ofList, readIso_isoChars t c hc]

/-- The start of the year 2020. -/
def demoStart : Timestamp := { year := 2020, month := 1, day := 1 }

/-- Half a second later than `demoStart`, and a nanosecond. -/
def demoLater : Timestamp := { year := 2020, month := 1, day := 1, second := 2, microsecond := 500000, nanosecond := 1 }

/-- A reading of the clocks. -/
def demoClock (k : ℕ) : Clock := ⟨{ demoStart with hour := k + 1 }, { demoStart with hour := k }⟩

/-- Ten samples of two channels at 1 Hz from `demoStart`. -/
def demoRecorded : Recorded where
  data := { md := { fs := 1, chans := ["Ex", "Hy"], nSamples := 10
                    firstTime := (CalTime.instant { year := 2020, month := 1, day := 1 })
                    lastTime := (CalTime.instant { year := 2020, month := 1, day := 1, second := 9 })
                    history := [] }
            data := [(List.range 10).map fun (k : ℕ) => (k : ℚ), (List.range 10).map fun (k : ℕ) => (k : ℚ) ^ 2] }
  records := []

/-- A subsection with a timestamp and a text, a sum, a filter, and a shift. -/
def demoSteps : List (Clock × TimeParams) :=
  [(demoClock 0, .subsection (.timestamp demoLater) (.text "2020-01-01T00:00:08")),
   (demoClock 1, .add (.dict [("Hy", 5)])),
   (demoClock 2, .lowPass (1 / 5) 10),
   (demoClock 3, .shift (1 / 2))]

theorem demoSteps_repeatable : ∀ q ∈ demoSteps, q.2.Repeatable := by
  intro q hq
  simp only [demoSteps, List.mem_cons, List.not_mem_nil, or_false] at hq
  rcases hq with rfl | rfl | rfl | rfl
  · exact ⟨⟨⟨_, rfl⟩, by decide, by decide⟩, trivial⟩
  · trivial
  · trivial
  · show (0 : ℚ) < 1 / 2
    norm_num

/-- Whether a computation ended without an exception. -/
def ended {α : Type} : Except Err α → Bool
  | .ok _ => true
  | .error _ => false

theorem demoSteps_run : ∃ out, runObjs demoRecEnv (demoSteps.map fun q => (q.1, mkTimeObj none q.2)) demoRecorded = .ok out := by
  have h : ended (runObjs demoRecEnv (demoSteps.map fun q => (q.1, mkTimeObj none q.2)) demoRecorded) = true := by
    decide +kernel
  cases hr : runObjs demoRecEnv (demoSteps.map fun q => (q.1, mkTimeObj none q.2)) demoRecorded with
  | ok out => exact ⟨out, rfl⟩
  | error e => rw [hr] at h; cases h

/-- the hypotheses of `C71_replay` are met, with other classes registered -/
example : ∃ out again, runObjs demoRecEnv (demoSteps.map fun q => (q.1, mkTimeObj none q.2)) demoRecorded = .ok out ∧
    out.records.length = 4 ∧
    replay demoRecEnv (registryWith demoClasses demoClasses) (defineAll (registryWith demoClasses demoClasses)).2
      ((List.map demoClock [4, 5, 6, 7]).zip out.records) demoRecorded = .ok ⟨out.data, again⟩ := by
  obtain ⟨out, hout⟩ := demoSteps_run
  obtain ⟨new, h1, h2, h3⟩ := C71_replay demoRecEnv demoRecEnv_reads demoClasses demoClasses
    (by unfold NotRedefined; decide) demoSteps demoSteps_repeatable demoRecorded out hout
  have h1' : out.records = new := by simpa [demoRecorded] using h1
  obtain ⟨again, h4, -⟩ := h3 (List.map demoClock [4, 5, 6, 7]) [] (by rw [h2]; rfl)
  exact ⟨out, again, hout, by rw [h1', h2]; rfl, by rw [h1']; exact h4⟩

/-- the hypotheses of `C71_custom_functions`, `C71_other_name` and `C71_far_years` are met -/
example :
    (∃ creator, (mkTimeObj none (.apply [("Ex", fun row => row.map (2 * ·))])).parameters demoRecEnv = .ok creator ∧
      rebuild (registryWith [] []) (defineAll (registryWith [] [])).2 creator = .error .value) ∧
    (∃ creator, (mkTimeObj (some "Mains filter") (.notch 50 none 10)).parameters demoRecEnv = .ok creator ∧
      rebuild (registryWith [] []) (defineAll (registryWith [] [])).2 creator = .error .value) ∧
    ∃ creator o, (mkTimeObj none (.subsection (.native ⟨1500, 1, 1, 0, 0, 0, 0, 0⟩) (.text "2020-01-01T00:00:08"))).parameters
        { demoRecEnv with pandas := fun s => if s = "2020-01-01T00:00:08" then .ok demoStart else .error .value } =
        .ok creator ∧
      rebuild (registryWith [] []) (defineAll (registryWith [] [])).2 creator = .ok o := by
  refine ⟨⟨_, rfl, C71_custom_functions demoRecEnv [] [] (by unfold NotRedefined; decide)
      [("Ex", fun row => row.map (2 * ·))] (List.cons_ne_nil _ _) _ rfl⟩,
    ⟨_, rfl, C71_other_name demoRecEnv _ (mkTimeObj (some "Mains filter") (.notch 50 none 10)) _ (by decide) rfl⟩, ?_⟩
  obtain ⟨-, c, o, h1, h2, -⟩ := C71_far_years
    { demoRecEnv with pandas := fun s => if s = "2020-01-01T00:00:08" then .ok demoStart else .error .value } [] []
    (by unfold NotRedefined; decide) ⟨1500, 1, 1, 0, 0, 0, 0, 0⟩ ⟨_, rfl⟩ rfl "2020-01-01T00:00:08" _ rfl
  exact ⟨c, o, h1, h2⟩

end Resistics
