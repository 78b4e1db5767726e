import Verif.Model.MetaText
import Verif.Props.Json
import Verif.Props.DateText
import Verif.Props.TransFunc

/-!
# C76: what is written in metadata files is what is read from them
-/

namespace Resistics

/-! ## What the objects can hold -/

/-- A number in a field of type `float`: a double, an infinity, nan, or (a default that was not validated) a whole number that is a
double. -/
def PyNum.Fits (x : PyNum) : Prop := x.Good ∧ ∀ n, x = .int n → |n| ≤ 2 ^ 53

/-- The number as a float. -/
def PyNum.asFloat : PyNum → PyNum
  | .int n => .float n
  | x => x

/-- A date time that has a text: years of four digits, at most 24 digits after the second (`C47_exact`). -/
def CalTime.Fits (t : CalTime) : Prop := t.valid = true ∧ 1000 ≤ t.year ∧ ∃ k : ℤ, t.instant = k / 10 ^ 24

/-- A `datetime`: a real day and time, in microseconds. -/
def Timestamp.IsNative (t : Timestamp) : Prop := (∃ c, ofTimestamp t = .ok c) ∧ t.nanosecond = 0

namespace Doc

/-- The information about the file. -/
def FileInfo.Fits (f : FileInfo) : Prop := f.createdLocal.IsNative ∧ f.createdUtc.IsNative

/-- The clocks show real times. -/
def Reading.ClocksRun (env : Reading) : Prop := env.now.localNow.IsNative ∧ env.now.utcNow.IsNative

/-- A record: its times are real, its creator is JSON. -/
def RecordDoc.Fits (r : RecordDoc) : Prop := r.timeLocal.IsNative ∧ r.timeUtc.IsNative ∧ (Json.dict r.creator).Good

/-- A history. -/
def HistoryFits (h : HistoryDoc) : Prop := ∀ r ∈ h, r.Fits

/-- Numbers of channel metadata. -/
def ChanDoc.Fits (c : ChanDoc) : Prop := c.gain1.Fits ∧ c.gain2.Fits ∧ c.scaling.Fits ∧ c.dipoleDist.Fits

/-- The numbers as floats. -/
def ChanDoc.asRead (c : ChanDoc) : ChanDoc :=
  { c with gain1 := c.gain1.asFloat, gain2 := c.gain2.asFloat, scaling := c.scaling.asFloat, dipoleDist := c.dipoleDist.asFloat }

/-- A dictionary of channels. -/
def ChansFit (cs : List (String × ChanDoc)) : Prop := (cs.map Prod.fst).Nodup ∧ ∀ q ∈ cs, q.2.Fits

/-- The numbers as floats. -/
def chansAsRead (cs : List (String × ChanDoc)) : List (String × ChanDoc) := cs.map fun q => (q.1, q.2.asRead)

/-- Numbers of the place. -/
def SiteDoc.Fits (s : SiteDoc) : Prop :=
  s.latitude.Fits ∧ s.longitude.Fits ∧ s.easting.Fits ∧ s.northing.Fits ∧ s.elevation.Fits

/-- The numbers as floats. -/
def SiteDoc.asRead (s : SiteDoc) : SiteDoc :=
  { s with latitude := s.latitude.asFloat, longitude := s.longitude.asFloat, easting := s.easting.asFloat
           northing := s.northing.asFloat, elevation := s.elevation.asFloat }

/-- What `TimeMetadata` can hold. -/
def TimeDoc.Fits (m : TimeDoc) : Prop :=
  (∀ f ∈ m.fileInfo, f.Fits) ∧ m.fs.Fits ∧ m.firstTime.Fits ∧ m.lastTime.Fits ∧ m.site.Fits ∧ ChansFit m.chansMeta ∧ HistoryFits m.history

/-- The numbers as floats. -/
def TimeDoc.asRead (m : TimeDoc) : TimeDoc :=
  { m with fs := m.fs.asFloat, site := m.site.asRead, chansMeta := chansAsRead m.chansMeta }

/-- What `DecimatedLevelMetadata` can hold. -/
def DecLevelDoc.Fits (l : DecLevelDoc) : Prop := l.fs.Fits ∧ l.firstTime.Fits ∧ l.lastTime.Fits
/-- The numbers as floats. -/
def DecLevelDoc.asRead (l : DecLevelDoc) : DecLevelDoc := { l with fs := l.fs.asFloat }

/-- What `WindowedLevelMetadata` can hold: sizes are positive. -/
def WinLevelDoc.Fits (l : WinLevelDoc) : Prop := l.fs.Fits ∧ 0 < l.winSize ∧ 0 < l.olapSize
/-- The numbers as floats. -/
def WinLevelDoc.asRead (l : WinLevelDoc) : WinLevelDoc := { l with fs := l.fs.asFloat }

/-- What `SpectraLevelMetadata` can hold. -/
def SpecLevelDoc.Fits (l : SpecLevelDoc) : Prop := l.win.Fits ∧ ∀ f ∈ l.freqs, f.Fits
/-- The numbers as floats. -/
def SpecLevelDoc.asRead (l : SpecLevelDoc) : SpecLevelDoc := { l with win := l.win.asRead, freqs := l.freqs.map PyNum.asFloat }

/-- What the metadata of data in levels can hold. -/
def LevelsDoc.Fits {L : Type} (level : L → Prop) (m : LevelsDoc L) : Prop :=
  (∀ f ∈ m.fileInfo, f.Fits) ∧ (∀ f ∈ m.fs, f.Fits) ∧ m.firstTime.Fits ∧ m.lastTime.Fits ∧ m.site.Fits ∧ ChansFit m.chansMeta ∧
    ∀ l ∈ m.levels, level l
/-- The numbers as floats. -/
def LevelsDoc.asRead {L : Type} (level : L → L) (m : LevelsDoc L) : LevelsDoc L :=
  { m with fs := m.fs.map PyNum.asFloat, site := m.site.asRead, chansMeta := chansAsRead m.chansMeta, levels := m.levels.map level }

/-- What `DecimatedMetadata` can hold. -/
def DecDoc.Fits (m : DecDoc) : Prop := m.main.Fits DecLevelDoc.Fits ∧ HistoryFits m.history
/-- The numbers as floats. -/
def DecDoc.asRead (m : DecDoc) : DecDoc := { m with main := m.main.asRead DecLevelDoc.asRead }

/-- What `WindowedMetadata` can hold. -/
def WinDoc.Fits (m : WinDoc) : Prop := m.main.Fits WinLevelDoc.Fits ∧ m.refTime.Fits ∧ HistoryFits m.history
/-- The numbers as floats. -/
def WinDoc.asRead (m : WinDoc) : WinDoc := { m with main := m.main.asRead WinLevelDoc.asRead }

/-- What `SpectraMetadata` can hold. -/
def SpecDoc.Fits (m : SpecDoc) : Prop := m.main.Fits SpecLevelDoc.Fits ∧ m.refTime.Fits ∧ HistoryFits m.history
/-- The numbers as floats. -/
def SpecDoc.asRead (m : SpecDoc) : SpecDoc := { m with main := m.main.asRead SpecLevelDoc.asRead }

/-- A serial number that is a text is no number (else it would have been turned into one). -/
def Serial.Fits (env : Reading) : Serial → Prop
  | .number _ => True
  | .text s => env.int (.str s) = .error .value

/-- What `CalibrationData` can hold; the path is written as `Path` writes it. -/
def CalDoc.Fits (env : Reading) (m : CalDoc) : Prop :=
  (∀ f ∈ m.fileInfo, f.Fits) ∧ (∀ p ∈ m.filePath, env.path p = p) ∧ m.serial.Fits env ∧ m.staticGain.Fits ∧
    (∀ f ∈ m.frequency, f.Fits) ∧ (∀ f ∈ m.magnitude, f.Fits) ∧ ∀ f ∈ m.phase, f.Fits
/-- The numbers as floats. -/
def CalDoc.asRead (m : CalDoc) : CalDoc :=
  { m with staticGain := m.staticGain.asFloat, frequency := m.frequency.map PyNum.asFloat
           magnitude := m.magnitude.map PyNum.asFloat, phase := m.phase.map PyNum.asFloat }

/-- What `ProjectMetadata` can hold. -/
def ProjectDoc.Fits (m : ProjectDoc) : Prop := (∀ f ∈ m.fileInfo, f.Fits) ∧ m.refTime.Fits

/-- What `SiteCombinedMetadata` can hold. -/
def CombinedDoc.Fits (m : CombinedDoc) : Prop :=
  (∀ f ∈ m.fileInfo, f.Fits) ∧ m.fs.Fits ∧ m.site.Fits ∧ (∀ f ∈ m.evalFreqs, f.Fits) ∧ (m.histories.map Prod.fst).Nodup ∧
    ∀ q ∈ m.histories, HistoryFits q.2
/-- The numbers as floats. -/
def CombinedDoc.asRead (m : CombinedDoc) : CombinedDoc :=
  { m with fs := m.fs.asFloat, site := m.site.asRead, evalFreqs := m.evalFreqs.map PyNum.asFloat }

/-- What a contributor can hold. -/
def Contributor.Fits : Contributor → Prop
  | .combined m => m.Fits
  | .spectra m => m.Fits
/-- The numbers as floats. -/
def Contributor.asRead : Contributor → Contributor
  | .combined m => .combined m.asRead
  | .spectra m => .spectra m.asRead

/-- What `Component` can hold. -/
def ComponentDoc.Fits (c : ComponentDoc) : Prop := (∀ f ∈ c.real, f.Fits) ∧ ∀ f ∈ c.imag, f.Fits
/-- The numbers as floats. -/
def ComponentDoc.asRead (c : ComponentDoc) : ComponentDoc := ⟨c.real.map PyNum.asFloat, c.imag.map PyNum.asFloat⟩

/-- A transfer function that was made by a class that is known when it is read, and has its name. -/
def TfKnown (types : List (String × TfClass)) (tf : TransFunc) : Prop :=
  ∃ cls a, a.name = none ∧ mkTransFunc cls a = .ok tf ∧
    (cls.className = "TransferFunction" ∧ cls = tfBase ∨ cls.className ≠ "TransferFunction" ∧ types.lookup cls.className = some cls)

/-- What `Solution` can hold. -/
def SolutionDoc.Fits (env : Reading) (m : SolutionDoc) : Prop :=
  (∀ f ∈ m.fileInfo, f.Fits) ∧ TfKnown env.tfTypes m.tf ∧ (∀ f ∈ m.freqs, f.Fits) ∧
    ((m.components.map Prod.fst).Nodup ∧ ∀ q ∈ m.components, q.2.Fits) ∧ HistoryFits m.history ∧
    ((m.contributors.map Prod.fst).Nodup ∧ ∀ q ∈ m.contributors, q.2.Fits)
/-- The numbers as floats. -/
def SolutionDoc.asRead (m : SolutionDoc) : SolutionDoc :=
  { m with freqs := m.freqs.map PyNum.asFloat, components := m.components.map fun q => (q.1, q.2.asRead)
           contributors := m.contributors.map fun q => (q.1, q.2.asRead) }

/-! ## Fields -/

theorem readFloat_num (env : Reading) {x : PyNum} (h : x.Fits) : readFloat env (.num x) = .ok x.asFloat := by
  cases x with
  | int n =>
    simp only [readFloat, floatOfInt, PyNum.asFloat]
    rw [C74_int_as_float n (h.2 n rfl)]
  | float q => rfl
  | inf b => rfl
  | nan => rfl

theorem also_ok {α β : Type} (f : α → β) (a : α) : ((.ok f : Except Err (α → β)) ⊛ .ok a) = .ok (f a) := rfl
theorem readStr_str (env : Reading) (s : String) : readStr env (.str s) = .ok s := rfl
theorem readBool_bool (env : Reading) (b : Bool) : readBool env (.bool b) = .ok b := rfl
theorem readInt_int (env : Reading) (n : ℤ) : readInt env (.num (.int n)) = .ok n := rfl
theorem orNull_str (env : Reading) (s : String) : orNull (readStr env) (.str s) = .ok (some s) := rfl
theorem orNull_int (env : Reading) (n : ℤ) : orNull (readInt env) (.num (.int n)) = .ok (some n) := rfl
theorem ok_then {α β : Type} (a : α) (f : α → Except Err β) : ((Except.ok a : Except Err α) >>= f) = f a := rfl
theorem readModel_dict {α : Type} (env : Reading) (f : List (String × Json) → Except Err α) (d : List (String × Json)) :
    readModel env f (.dict d) = f d := rfl
theorem nChansOf_some (c : Except Err (List String)) (n : ℤ) : nChansOf c (some n) = .ok n := rfl
theorem chanTypeOf_some (c : Except Err String) (t : String) : chanTypeOf c (some t) = .ok t := rfl

theorem readAll_map {α β : Type} (read : Json → Except Err β) (enc : α → Json) (f : α → β) :
    ∀ l : List α, (∀ a ∈ l, read (enc a) = .ok (f a)) → readAll read (l.map enc) = .ok (l.map f)
  | [], _ => rfl
  | a :: l, h => by
      rw [List.map_cons, readAll, h a (by simp), readAll_map read enc f l fun b hb => h b (by simp [hb])]
      rfl

theorem readEntries_map {α β : Type} (read : Json → Except Err β) (enc : α → Json) (f : α → β) :
    ∀ l : List (String × α), (∀ q ∈ l, read (enc q.2) = .ok (f q.2)) →
      readEntries read (l.map fun q => (q.1, enc q.2)) = .ok (l.map fun q => (q.1, f q.2))
  | [], _ => rfl
  | (k, a) :: l, h => by
      rw [List.map_cons, readEntries, h (k, a) (by simp), readEntries_map read enc f l fun b hb => h b (by simp [hb])]
      rfl

theorem readList_strs (env : Reading) (l : List String) : readList (readStr env) (strList l) = .ok l := by
  have := readAll_map (readStr env) Json.str id l (fun a _ => rfl)
  simpa [strList, readList] using this

theorem readList_nums (env : Reading) (l : List PyNum) (h : ∀ x ∈ l, x.Fits) :
    readList (readFloat env) (numList l) = .ok (l.map PyNum.asFloat) :=
  readAll_map (readFloat env) Json.num PyNum.asFloat l fun x hx => readFloat_num env (h x hx)

theorem readTime_json (env : Reading) {t : CalTime} (h : t.Fits) : readTime env (timeJson t) = .ok t :=
  C47_to_datetime env.pandas t h.1 h.2.1 h.2.2

theorem readMicros_iso (t : Timestamp) (h : t.microsecond < 1000000) :
    readMicros (if t.microsecond = 0 then [] else '.' :: padDigits 6 t.microsecond) = some t.microsecond := by
  by_cases h0 : t.microsecond = 0
  · simp [h0, readMicros]
  · rw [if_neg h0]
    simp only [readMicros, if_true]
    have := readNumber_pad 6 0 t.microsecond (by omega) []
    rw [List.append_nil] at this
    rw [this]
    simp

theorem readIsoNative_iso {t : Timestamp} (h : t.IsNative) : readIsoNative (isoText t).toList = some t := by
  obtain ⟨⟨c, hc⟩, hnano⟩ := h
  unfold isoText
  rw [String.toList_ofList]
  unfold ofTimestamp at hc
  rw [checkedTime_some] at hc
  split at hc
  · rename_i hv
    have hv := (valid_iff _).1 hv
    have hd := hv.day_le
    have hd2 := daysInMonth_le t.year t.month
    have hy := hv.year_le
    have hm := hv.month_le
    have hh := hv.hour_lt
    have hmi := hv.minute_lt
    have hs := hv.second_lt
    have hu := hv.micro_lt
    simp only at hd hy hm hh hmi hs hu
    unfold readIsoNative isoChars
    rw [readNumber_pad 4 0 t.year (by omega)]
    simp only [Option.bind_eq_bind, Option.bind_some]
    rw [readField_pad '-' 2 t.month (by omega)]
    simp only [Option.bind_some]
    rw [readField_pad '-' 2 t.day (by omega)]
    simp only [Option.bind_some]
    rw [readField_pad 'T' 2 t.hour (by omega)]
    simp only [Option.bind_some]
    rw [readField_pad ':' 2 t.minute (by omega)]
    simp only [Option.bind_some]
    rw [List.append_assoc, readField_pad ':' 2 t.second (by omega)]
    simp only [Option.bind_some, hnano, and_true, if_true, List.append_nil]
    rw [readMicros_iso t hu]
    cases t
    simp at hnano
    simp [hnano]
  · cases hc

theorem readNative_json (env : Reading) {t : Timestamp} (h : t.IsNative) : readNative env (nativeJson t) = .ok t := by
  obtain ⟨⟨c, hc⟩, _⟩ := id h
  simp only [readNative, nativeJson, readIsoNative_iso h, checkedNative, hc]
  rfl

theorem orNull_optStr (env : Reading) (s : Option String) : orNull (readStr env) (optStr s) = .ok s := by
  cases s <;> rfl

theorem orNull_optStrList (env : Reading) (l : Option (List String)) : orNull (readList (readStr env)) (optStrList l) = .ok l := by
  cases l with
  | none => rfl
  | some l =>
    have := readList_strs env l
    simp only [optStrList, strList, orNull] at this ⊢
    rw [this]
    rfl

theorem readFileInfo_some (env : Reading) {f : FileInfo} (h : f.Fits) : readModel env (FileInfo.read env) f.toJson = .ok f := by
  simp [readModel_dict, FileInfo.read, FileInfo.toJson, withDefault, List.lookup, readNative_json env h.1, readNative_json env h.2,
    orNull_optStr, also_ok]

theorem readFileInfo_json (env : Reading) (f : Option FileInfo) (h : ∀ g ∈ f, g.Fits) :
    orNull (readModel env (FileInfo.read env)) (fileInfoJson f) = .ok f := by
  cases f with
  | none => rfl
  | some f =>
    have := readFileInfo_some env (h f rfl)
    simp only [fileInfoJson]
    unfold FileInfo.toJson at this ⊢
    simp only [orNull]
    rw [this]
    rfl

theorem readRecord (env : Reading) {r : RecordDoc} (h : r.Fits) : readModel env (RecordDoc.read env) r.toJson = .ok r := by
  simp [readModel_dict, RecordDoc.read, RecordDoc.toJson, withDefault, required, List.lookup, readNative_json env h.1,
    readNative_json env h.2.1, readList_strs, also_ok, readStr_str, readPairs]

theorem readHistory_json (env : Reading) {h : HistoryDoc} (hh : HistoryFits h) :
    readModel env (readHistory env) (historyJson h) = .ok h := by
  have := readAll_map (readModel env (RecordDoc.read env)) RecordDoc.toJson id h fun r hr => readRecord env (hh r hr)
  simp only [List.map_id] at this
  simp [readModel, readPairs, readHistory, historyJson, withDefault, List.lookup, readList, bind, Except.bind, this]

theorem readDataFiles_json (env : Reading) (l : Option (List String)) : readDataFiles env (optStrList l) = .ok l := by
  have := orNull_optStrList env l
  cases l with
  | none => rfl
  | some l => exact this

theorem readChan (env : Reading) {c : ChanDoc} (h : c.Fits) : readModel env (ChanDoc.read env) c.toJson = .ok c.asRead := by
  simp [readModel_dict, ChanDoc.read, ChanDoc.toJson, withDefault, required, List.lookup, readDataFiles_json, orNull_optStr,
    readFloat_num env h.1, readFloat_num env h.2.1, readFloat_num env h.2.2.1, readFloat_num env h.2.2.2, also_ok, ok_then,
    readStr_str, readBool_bool, orNull_str, chanTypeOf_some, ChanDoc.asRead]

theorem readChans_json (env : Reading) {cs : List (String × ChanDoc)} (h : ChansFit cs) :
    readChans env (chansJson cs) = .ok (chansAsRead cs) :=
  readEntries_map (readModel env (ChanDoc.read env)) ChanDoc.toJson ChanDoc.asRead cs fun q hq => readChan env (h.2 q hq)

theorem lookup_append_none {d e : List (String × Json)} {k : String} (h : d.lookup k = none) : (d ++ e).lookup k = e.lookup k := by
  rw [List.lookup_append, h]; rfl

/-- The fields of the place do not depend on what else is in the file. -/
theorem readSite (env : Reading) (s : SiteDoc) (h : s.Fits) (d : List (String × Json))
    (hd : ∀ k v, (k, v) ∈ s.pairs → d.lookup k = some v) : SiteDoc.read env d = .ok s.asRead := by
  obtain ⟨h1, h2, h3, h4, h5⟩ := h
  have e1 := hd "system" (.str s.system) (by simp [SiteDoc.pairs])
  have e2 := hd "serial" (.str s.serial) (by simp [SiteDoc.pairs])
  have e3 := hd "wgs84_latitude" (.num s.latitude) (by simp [SiteDoc.pairs])
  have e4 := hd "wgs84_longitude" (.num s.longitude) (by simp [SiteDoc.pairs])
  have e5 := hd "easting" (.num s.easting) (by simp [SiteDoc.pairs])
  have e6 := hd "northing" (.num s.northing) (by simp [SiteDoc.pairs])
  have e7 := hd "elevation" (.num s.elevation) (by simp [SiteDoc.pairs])
  simp [SiteDoc.read, withDefault, e1, e2, e3, e4, e5, e6, e7, readStr_str, readFloat_num env h1, readFloat_num env h2,
    readFloat_num env h3, readFloat_num env h4, readFloat_num env h5, also_ok, SiteDoc.asRead]

/-! ## Recordings -/

theorem readTimeDoc (env : Reading) {m : TimeDoc} (h : m.Fits) : readModel env (TimeDoc.read env) m.toJson = .ok m.asRead := by
  obtain ⟨h1, h2, h3, h4, h5, h6, h7⟩ := h
  simp only [TimeDoc.toJson, readModel_dict]
  unfold TimeDoc.read
  rw [readSite env m.site h5 _ (by
    intro k v hk
    simp only [SiteDoc.pairs, List.mem_cons, List.not_mem_nil, or_false, Prod.mk.injEq] at hk
    rcases hk with ⟨rfl, rfl⟩ | ⟨rfl, rfl⟩ | ⟨rfl, rfl⟩ | ⟨rfl, rfl⟩ | ⟨rfl, rfl⟩ | ⟨rfl, rfl⟩ | ⟨rfl, rfl⟩ <;>
      simp [SiteDoc.pairs, List.lookup])]
  simp [readFileInfo, readNChans, SiteDoc.pairs, withDefault, required, List.lookup, readFileInfo_json env m.fileInfo h1,
    readFloat_num env h2, readTime_json env h3, readTime_json env h4, readChans_json env h6, readHistory_json env h7, also_ok,
    readList_strs, readInt_int, orNull_int, nChansOf_some, ok_then, TimeDoc.asRead]

/-! ## Data in levels -/

theorem readDecLevel (env : Reading) {l : DecLevelDoc} (h : l.Fits) : readModel env (DecLevelDoc.read env) l.toJson = .ok l.asRead := by
  simp [readModel_dict, DecLevelDoc.read, DecLevelDoc.toJson, required, List.lookup, readFloat_num env h.1, readTime_json env h.2.1,
    readTime_json env h.2.2, readInt_int, also_ok, DecLevelDoc.asRead]

theorem readPositive_int (env : Reading) {n : ℤ} (h : 0 < n) : readPositive env (.num (.int n)) = .ok n := by
  unfold readPositive
  rw [readInt_int, ok_then, positive, if_pos h]

/-- The fields of a windowed level do not depend on what else there is. -/
theorem readWinLevel_of (env : Reading) (l : WinLevelDoc) (h : l.Fits) (d : List (String × Json))
    (hd : ∀ k v, (k, v) ∈ l.pairs → d.lookup k = some v) : WinLevelDoc.read env d = .ok l.asRead := by
  have e1 := hd "fs" (.num l.fs) (by simp [WinLevelDoc.pairs])
  have e2 := hd "n_wins" (.num (.int l.nWins)) (by simp [WinLevelDoc.pairs])
  have e3 := hd "win_size" (.num (.int l.winSize)) (by simp [WinLevelDoc.pairs])
  have e4 := hd "olap_size" (.num (.int l.olapSize)) (by simp [WinLevelDoc.pairs])
  have e5 := hd "index_offset" (.num (.int l.indexOffset)) (by simp [WinLevelDoc.pairs])
  simp [WinLevelDoc.read, required, e1, e2, e3, e4, e5, readFloat_num env h.1, readInt_int, readPositive_int env h.2.1,
    readPositive_int env h.2.2, also_ok, WinLevelDoc.asRead]

/-- Dictionaries with different keys: every entry is found. -/
theorem lookup_pairs_append {d e : List (String × Json)} (h : (d.map Prod.fst).Nodup) (k : String) (v : Json) (hk : (k, v) ∈ d) :
    (d ++ e).lookup k = some v := by
  induction d with
  | nil => simp at hk
  | cons q d ih =>
    obtain ⟨k', v'⟩ := q
    simp only [List.map_cons, List.nodup_cons] at h
    rw [List.cons_append, List.lookup_cons]
    rcases List.mem_cons.1 hk with hk1 | hk2
    · obtain ⟨rfl, rfl⟩ := Prod.mk.inj hk1
      simp
    · have hne : k ≠ k' := by
        rintro rfl
        exact h.1 (List.mem_map.2 ⟨(k, v), hk2, rfl⟩)
      rw [show (k == k') = false from by simpa using hne]
      exact ih h.2 hk2

theorem winPairs_nodup (l : WinLevelDoc) : (l.pairs.map Prod.fst).Nodup := by
  simp [WinLevelDoc.pairs]

theorem readWinLevel (env : Reading) {l : WinLevelDoc} (h : l.Fits) : readModel env (WinLevelDoc.read env) l.toJson = .ok l.asRead := by
  rw [WinLevelDoc.toJson, readModel_dict]
  apply readWinLevel_of env l h
  intro k v hk
  have := lookup_pairs_append (e := []) (winPairs_nodup l) k v hk
  rwa [List.append_nil] at this

theorem readSpecLevel_win (env : Reading) {l : SpecLevelDoc} (h : l.Fits) :
    readModel env (WinLevelDoc.read env) l.toJson = .ok l.win.asRead := by
  rw [SpecLevelDoc.toJson, readModel_dict]
  exact readWinLevel_of env l.win h.1 _ fun k v hk => lookup_pairs_append (winPairs_nodup l.win) k v hk

theorem readSpecLevel (env : Reading) {l : SpecLevelDoc} (h : l.Fits) :
    readModel env (SpecLevelDoc.read env) l.toJson = .ok l.asRead := by
  have hw := readSpecLevel_win env h
  rw [SpecLevelDoc.toJson, readModel_dict] at hw ⊢
  unfold SpecLevelDoc.read
  rw [hw]
  simp [WinLevelDoc.pairs, required, List.lookup, readInt_int, readList_nums env l.freqs h.2, also_ok, SpecLevelDoc.asRead]

theorem sitePairs_found (s : SiteDoc) (a b : List (String × Json)) (h : ∀ k, (∃ v, (k, v) ∈ s.pairs) → a.lookup k = none) (k : String)
    (v : Json) (hk : (k, v) ∈ s.pairs) : (a ++ (s.pairs ++ b)).lookup k = some v := by
  rw [lookup_append_none (h k ⟨v, hk⟩)]
  exact lookup_pairs_append (by simp [SiteDoc.pairs]) k v hk

/-- The shared fields of data in levels do not depend on what follows them. -/
theorem readLevels {L L' : Type} (env : Reading) (enc : L → Json) (read : List (String × Json) → Except Err L') (as : L → L') (m : LevelsDoc L)
    (h1 : ∀ f ∈ m.fileInfo, f.Fits) (h2 : ∀ f ∈ m.fs, f.Fits) (h3 : m.firstTime.Fits) (h4 : m.lastTime.Fits) (h5 : m.site.Fits)
    (h6 : ChansFit m.chansMeta) (hl : ∀ l ∈ m.levels, readModel env read (enc l) = .ok (as l)) (rest : List (String × Json)) :
    LevelsDoc.read env read (m.pairs enc ++ rest) =
      .ok ⟨m.fileInfo, m.fs.map PyNum.asFloat, m.chans, m.nChans, m.nLevels, m.firstTime, m.lastTime, m.site.asRead,
        chansAsRead m.chansMeta, m.levels.map as⟩ := by
  unfold LevelsDoc.read
  rw [readSite env m.site h5 _ (by
    intro k v hk
    unfold LevelsDoc.pairs
    rw [List.append_assoc, List.append_assoc]
    refine sitePairs_found m.site _ _ ?_ k v hk
    intro k hk
    simp only [SiteDoc.pairs, List.mem_cons, List.not_mem_nil, or_false, Prod.mk.injEq] at hk
    obtain ⟨v, hk⟩ := hk
    rcases hk with ⟨rfl, rfl⟩ | ⟨rfl, rfl⟩ | ⟨rfl, rfl⟩ | ⟨rfl, rfl⟩ | ⟨rfl, rfl⟩ | ⟨rfl, rfl⟩ | ⟨rfl, rfl⟩ <;> simp [List.lookup])]
  have hlev : readList (readModel env read) (.list (m.levels.map enc)) = .ok (m.levels.map as) :=
    readAll_map (readModel env read) enc as m.levels hl
  simp [LevelsDoc.pairs, readFileInfo, readNChans, SiteDoc.pairs, withDefault, required, List.lookup, readFileInfo_json env m.fileInfo h1,
    readList_nums env m.fs h2, readTime_json env h3, readTime_json env h4, readChans_json env h6, hlev, also_ok,
    readList_strs, readInt_int, orNull_int, nChansOf_some, ok_then]

/-- The keys of the shared fields. -/
def levelsKeys : List String :=
  ["file_info", "fs", "chans", "n_chans", "n_levels", "first_time", "last_time", "system", "serial", "wgs84_latitude", "wgs84_longitude",
    "easting", "northing", "elevation", "chans_metadata", "levels_metadata"]

theorem levels_keys {L : Type} (enc : L → Json) (m : LevelsDoc L) : (m.pairs enc).map Prod.fst = levelsKeys := rfl

theorem lookup_none_of_keys {d : List (String × Json)} {k : String} (h : k ∉ d.map Prod.fst) : d.lookup k = none := by
  rw [List.lookup_eq_none_iff]
  rintro ⟨k', v⟩ hq
  rw [bne_iff_ne]
  rintro rfl
  exact h (List.mem_map.2 ⟨(k, v), hq, rfl⟩)

theorem levels_rest {L : Type} (enc : L → Json) (m : LevelsDoc L) (rest : List (String × Json)) (k : String) (h : k ∉ levelsKeys) :
    (m.pairs enc ++ rest).lookup k = rest.lookup k := by
  apply lookup_append_none
  apply lookup_none_of_keys
  rw [levels_keys]
  exact h

theorem readDecDoc (env : Reading) {m : DecDoc} (h : m.Fits) : readModel env (DecDoc.read env) m.toJson = .ok m.asRead := by
  obtain ⟨⟨h1, h2, h3, h4, h5, h6, h7⟩, h8⟩ := h
  rw [DecDoc.toJson, readModel_dict]
  unfold DecDoc.read
  rw [readLevels env DecLevelDoc.toJson (DecLevelDoc.read env) DecLevelDoc.asRead m.main h1 h2 h3 h4 h5 h6
    fun l hl => readDecLevel env (h7 l hl)]
  rw [withDefault, levels_rest _ _ _ _ (by decide)]
  simp [List.lookup, readHistory_json env h8, also_ok, DecDoc.asRead, LevelsDoc.asRead]

theorem readWinDoc (env : Reading) {m : WinDoc} (h : m.Fits) : readModel env (WinDoc.read env) m.toJson = .ok m.asRead := by
  obtain ⟨⟨h1, h2, h3, h4, h5, h6, h7⟩, h8, h9⟩ := h
  rw [WinDoc.toJson, readModel_dict]
  unfold WinDoc.read
  rw [readLevels env WinLevelDoc.toJson (WinLevelDoc.read env) WinLevelDoc.asRead m.main h1 h2 h3 h4 h5 h6
    fun l hl => readWinLevel env (h7 l hl)]
  rw [withDefault, required, levels_rest _ _ _ _ (by decide), levels_rest _ _ _ _ (by decide)]
  simp [List.lookup, readHistory_json env h9, readTime_json env h8, also_ok, WinDoc.asRead, LevelsDoc.asRead]

theorem readSpecDoc (env : Reading) {m : SpecDoc} (h : m.Fits) : readModel env (SpecDoc.read env) m.toJson = .ok m.asRead := by
  obtain ⟨⟨h1, h2, h3, h4, h5, h6, h7⟩, h8, h9⟩ := h
  rw [SpecDoc.toJson, readModel_dict]
  unfold SpecDoc.read
  rw [readLevels env SpecLevelDoc.toJson (SpecLevelDoc.read env) SpecLevelDoc.asRead m.main h1 h2 h3 h4 h5 h6
    fun l hl => readSpecLevel env (h7 l hl)]
  rw [withDefault, required, levels_rest _ _ _ _ (by decide), levels_rest _ _ _ _ (by decide)]
  simp [List.lookup, readHistory_json env h9, readTime_json env h8, also_ok, SpecDoc.asRead, LevelsDoc.asRead]

/-! ## Calibration data, projects and solutions -/

theorem readSerial_json (env : Reading) {s : Serial} (h : s.Fits env) : readSerial env s.toJson = .ok s := by
  cases s with
  | number n => rfl
  | text s =>
    have : env.int (.str s) = .error .value := h
    simp [readSerial, Serial.toJson, readInt, this, orElse, Except.map, readStr_str]

theorem readPath_json (env : Reading) (p : Option String) (h : ∀ s ∈ p, env.path s = s) : orNull (readPath env) (optStr p) = .ok p := by
  cases p with
  | none => rfl
  | some p =>
    have := h p rfl
    simp [optStr, orNull, readPath, this, Except.map]

theorem nSamplesOf_some (c : Except Err (List PyNum)) (n : ℤ) : nSamplesOf c (some n) = .ok n := rfl

theorem readCalDoc (env : Reading) {m : CalDoc} (h : m.Fits env) : readModel env (CalDoc.read env) m.toJson = .ok m.asRead := by
  obtain ⟨h1, h2, h3, h4, h5, h6, h7⟩ := h
  simp [readModel_dict, CalDoc.read, CalDoc.toJson, readFileInfo, withDefault, required, List.lookup, readFileInfo_json env m.fileInfo h1,
    readPath_json env m.filePath h2, readSerial_json env h3, readFloat_num env h4, readList_nums env _ h5, readList_nums env _ h6,
    readList_nums env _ h7, readStr_str, orNull_int, nSamplesOf_some, ok_then, also_ok, CalDoc.asRead]

theorem readProjectDoc (env : Reading) {m : ProjectDoc} (h : m.Fits) : readModel env (ProjectDoc.read env) m.toJson = .ok m := by
  simp [readModel_dict, ProjectDoc.read, ProjectDoc.toJson, readFileInfo, withDefault, required, List.lookup,
    readFileInfo_json env m.fileInfo h.1, readTime_json env h.2, readStr_str, readInt_int, readList_strs, also_ok]

theorem readCombinedDoc (env : Reading) {m : CombinedDoc} (h : m.Fits) :
    readModel env (CombinedDoc.read env) m.toJson = .ok m.asRead := by
  obtain ⟨h1, h2, h3, h4, h5, h6⟩ := h
  rw [CombinedDoc.toJson, readModel_dict]
  unfold CombinedDoc.read
  rw [readSite env m.site h3 _ (by
    refine sitePairs_found m.site _ _ ?_
    intro k hk
    simp only [SiteDoc.pairs, List.mem_cons, List.not_mem_nil, or_false, Prod.mk.injEq] at hk
    obtain ⟨v, hk⟩ := hk
    rcases hk with ⟨rfl, rfl⟩ | ⟨rfl, rfl⟩ | ⟨rfl, rfl⟩ | ⟨rfl, rfl⟩ | ⟨rfl, rfl⟩ | ⟨rfl, rfl⟩ | ⟨rfl, rfl⟩ <;> simp [List.lookup])]
  have hh : readDict env (readModel env (readHistory env)) (.dict (m.histories.map fun q => (q.1, historyJson q.2))) = .ok m.histories := by
    have := readEntries_map (readModel env (readHistory env)) historyJson id m.histories fun q hq => readHistory_json env (h6 q hq)
    simpa [readDict, readPairs, bind, Except.bind] using this
  simp [readFileInfo, SiteDoc.pairs, withDefault, required, List.lookup, readFileInfo_json env m.fileInfo h1,
    readFloat_num env h2, readList_nums env _ h4, readList_strs, readStr_str, readInt_int, orNull_optStrList, hh, also_ok, CombinedDoc.asRead]

theorem readComponent (env : Reading) {c : ComponentDoc} (h : c.Fits) :
    readModel env (ComponentDoc.read env) c.toJson = .ok c.asRead := by
  simp [readModel_dict, ComponentDoc.read, ComponentDoc.toJson, required, List.lookup, readList_nums env _ h.1, readList_nums env _ h.2,
    also_ok, ComponentDoc.asRead]

theorem readTf_json (env : Reading) {tf : TransFunc} (h : TfKnown env.tfTypes tf) : readTf env (tfJson tf) = .ok tf := by
  obtain ⟨cls, a, ha, hm, hreg⟩ := h
  have key := C37_dict_roundtrip env.tfTypes cls a tf ha hm hreg
  have hargs : readTfArgs env [("name", .str tf.name), ("variation", .str tf.variation), ("out_chans", strList tf.outChans),
      ("in_chans", strList tf.inChans), ("cross_chans", strList tf.crossChans), ("n_out", .num (.int tf.nOut)),
      ("n_in", .num (.int tf.nIn)), ("n_cross", .num (.int tf.nCross))] = .ok { tf.toArgs with name := none } := by
    have h1 := orNull_optStrList env (some tf.crossChans)
    simp only [optStrList] at h1
    simp [readTfArgs, withDefault, List.lookup, readStr_str, readList_strs, h1, orNull_int, Except.map, also_ok, TransFunc.toArgs]
  simp only [readTf, tfJson]
  rw [hargs]
  simp only [TransFunc.toDict, tfValidate] at key
  simp [List.lookup, nameText, tfValidate, bind, Except.bind, key]

theorem also_value {α β : Type} {f : Except Err (α → β)} {x : Except Err α} (hf : f = .error .value ∨ ∃ g, f = .ok g)
    (hx : x = .error .value ∨ ∃ a, x = .ok a) : (f ⊛ x) = .error .value ∨ ∃ b, (f ⊛ x) = .ok b := by
  rcases hf with rfl | ⟨g, rfl⟩ <;> rcases hx with rfl | ⟨a, rfl⟩
  · exact .inl rfl
  · exact .inl rfl
  · exact .inl rfl
  · exact .inr ⟨_, rfl⟩

/-- Metadata of spectra are no metadata of combined sites. -/
theorem readCombined_spec (env : Reading) {m : SpecDoc} (h : m.Fits) :
    readModel env (CombinedDoc.read env) m.toJson = .error .value := by
  obtain ⟨⟨h1, h2, h3, h4, h5, h6, h7⟩, h8, h9⟩ := h
  rw [SpecDoc.toJson, readModel_dict]
  unfold CombinedDoc.read
  rw [readSite env m.main.site h5 _ (by
    intro k v hk
    unfold LevelsDoc.pairs
    rw [List.append_assoc, List.append_assoc]
    refine sitePairs_found m.main.site _ _ ?_ k v hk
    intro k hk
    simp only [SiteDoc.pairs, List.mem_cons, List.not_mem_nil, or_false, Prod.mk.injEq] at hk
    obtain ⟨v, hk⟩ := hk
    rcases hk with ⟨rfl, rfl⟩ | ⟨rfl, rfl⟩ | ⟨rfl, rfl⟩ | ⟨rfl, rfl⟩ | ⟨rfl, rfl⟩ | ⟨rfl, rfl⟩ | ⟨rfl, rfl⟩ <;> simp [List.lookup])]
  have hfs : readFloat env (numList m.main.fs) = .error .value := rfl
  simp [LevelsDoc.pairs, readFileInfo, SiteDoc.pairs, withDefault, required, List.lookup, readFileInfo_json env m.main.fileInfo h1,
    hfs, readList_strs, alsoCheck]

theorem readContributor_json (env : Reading) {c : Contributor} (h : c.Fits) : readContributor env c.toJson = .ok c.asRead := by
  cases c with
  | combined m =>
    unfold readContributor
    simp only [Contributor.toJson]
    rw [readCombinedDoc env h]
    rfl
  | spectra m =>
    unfold readContributor
    simp only [Contributor.toJson]
    rw [readCombined_spec env h, readSpecDoc env h]
    rfl

theorem readSolutionDoc (env : Reading) {m : SolutionDoc} (h : m.Fits env) :
    readModel env (SolutionDoc.read env) m.toJson = .ok m.asRead := by
  obtain ⟨h1, h2, h3, ⟨_, h4⟩, h5, _, h6⟩ := h
  have hc : readDict env (readModel env (ComponentDoc.read env)) (.dict (m.components.map fun q => (q.1, q.2.toJson))) =
      .ok (m.components.map fun q => (q.1, q.2.asRead)) :=
    readEntries_map (readModel env (ComponentDoc.read env)) ComponentDoc.toJson ComponentDoc.asRead m.components
      fun q hq => readComponent env (h4 q hq)
  have hk : readDict env (readContributor env) (.dict (m.contributors.map fun q => (q.1, q.2.toJson))) =
      .ok (m.contributors.map fun q => (q.1, q.2.asRead)) :=
    readEntries_map (readContributor env) Contributor.toJson Contributor.asRead m.contributors
      fun q hq => readContributor_json env (h6 q hq)
  simp [readModel_dict, SolutionDoc.read, SolutionDoc.toJson, readFileInfo, withDefault, required, List.lookup,
    readFileInfo_json env m.fileInfo h1, readTf_json env h2, readList_nums env _ h3, hc, hk, readHistory_json env h5, also_ok,
    SolutionDoc.asRead]

/-! ## The values that are written are JSON -/

theorem good_strList (l : List String) : (strList l).Good := by
  unfold strList
  rw [Json.Good, goodItems_iff]
  intro v hv
  obtain ⟨s, _, rfl⟩ := List.mem_map.1 hv
  exact trivial

theorem good_optStr (s : Option String) : (optStr s).Good := by
  cases s <;> exact trivial

theorem good_optStrList (l : Option (List String)) : (optStrList l).Good := by
  cases l with
  | none => exact trivial
  | some l => exact good_strList l

theorem good_numList {l : List PyNum} (h : ∀ x ∈ l, x.Fits) : (numList l).Good := by
  unfold numList
  rw [Json.Good, goodItems_iff]
  intro v hv
  obtain ⟨x, hx, rfl⟩ := List.mem_map.1 hv
  exact (h x hx).1

theorem pyInt_good (n : ℤ) : (PyNum.int n).Good := trivial
theorem good_int (n : ℤ) : (Json.num (.int n)).Good := trivial
theorem good_str (s : String) : (Json.str s).Good := trivial
theorem good_bool (b : Bool) : (Json.bool b).Good := trivial
theorem good_num {x : PyNum} (h : x.Fits) : (Json.num x).Good := h.1
theorem good_time (t : CalTime) : (timeJson t).Good := trivial
theorem good_native (t : Timestamp) : (nativeJson t).Good := trivial

theorem good_items {α : Type} (enc : α → Json) (l : List α) (h : ∀ a ∈ l, (enc a).Good) : (Json.list (l.map enc)).Good := by
  rw [Json.Good, goodItems_iff]
  intro v hv
  obtain ⟨x, hx, rfl⟩ := List.mem_map.1 hv
  exact h x hx

theorem good_entries {α : Type} (enc : α → Json) (l : List (String × α)) (hn : (l.map Prod.fst).Nodup) (h : ∀ q ∈ l, (enc q.2).Good) :
    (Json.dict (l.map fun q => (q.1, enc q.2))).Good := by
  rw [Json.Good, goodPairs_iff, List.map_map]
  refine ⟨hn, fun v hv => ?_⟩
  obtain ⟨x, hx, rfl⟩ := List.mem_map.1 hv
  exact h x hx

theorem good_fileInfo (f : Option FileInfo) : (fileInfoJson f).Good := by
  cases f with
  | none => exact trivial
  | some f => simp [fileInfoJson, FileInfo.toJson, Json.Good, GoodPairs, good_native, good_optStr]

theorem good_record {r : RecordDoc} (h : r.Fits) : r.toJson.Good := by
  have := h.2.2
  simp only [Json.Good] at this
  simp [RecordDoc.toJson, Json.Good, GoodPairs, good_native, good_strList, this]

theorem good_history {h : HistoryDoc} (hh : HistoryFits h) : (historyJson h).Good := by
  have := good_items RecordDoc.toJson h fun r hr => good_record (hh r hr)
  simp only [Json.Good] at this
  simp [historyJson, Json.Good, GoodPairs, this]

theorem good_chan {c : ChanDoc} (h : c.Fits) : c.toJson.Good := by
  have h1 := h.1.1
  have h2 := h.2.1.1
  have h3 := h.2.2.1.1
  have h4 := h.2.2.2.1
  simp [ChanDoc.toJson, Json.Good, GoodPairs, good_optStrList, good_optStr, h1, h2, h3, h4]

theorem good_chans {cs : List (String × ChanDoc)} (h : ChansFit cs) : (chansJson cs).Good :=
  good_entries ChanDoc.toJson cs h.1 fun q hq => good_chan (h.2 q hq)

theorem good_site {s : SiteDoc} (h : s.Fits) : ∀ q ∈ s.pairs, q.2.Good := by
  obtain ⟨h1, h2, h3, h4, h5⟩ := h
  simp [SiteDoc.pairs, good_str, good_num h1, good_num h2, good_num h3, good_num h4, good_num h5]

theorem good_timeDoc {m : TimeDoc} (h : m.Fits) : m.toJson.Good := by
  obtain ⟨h1, h2, h3, h4, h5, h6, h7⟩ := h
  rw [TimeDoc.toJson, Json.Good, goodPairs_iff]
  refine ⟨by simp [SiteDoc.pairs], ?_⟩
  intro q hq
  rw [List.mem_append, List.mem_append] at hq
  rcases hq with hq | hq | hq
  · simp only [List.mem_cons, List.not_mem_nil, or_false] at hq
    rcases hq with rfl | rfl | rfl | rfl | rfl | rfl | rfl
    exacts [good_fileInfo _, good_num h2, good_strList _, good_int _, good_int _, good_time _, good_time _]
  · exact good_site h5 q hq
  · simp only [List.mem_cons, List.not_mem_nil, or_false] at hq
    rcases hq with rfl | rfl
    exacts [good_chans h6, good_history h7]

theorem good_decLevel {l : DecLevelDoc} (h : l.Fits) : l.toJson.Good := by
  have := h.1.1
  simp [DecLevelDoc.toJson, Json.Good, GoodPairs, good_time, this, pyInt_good]

theorem good_winPairs {l : WinLevelDoc} (h : l.Fits) : ∀ q ∈ l.pairs, q.2.Good := by
  simp [WinLevelDoc.pairs, good_num h.1, good_int]

theorem good_winLevel {l : WinLevelDoc} (h : l.Fits) : l.toJson.Good := by
  rw [WinLevelDoc.toJson, Json.Good, goodPairs_iff]
  exact ⟨winPairs_nodup l, good_winPairs h⟩

theorem good_specLevel {l : SpecLevelDoc} (h : l.Fits) : l.toJson.Good := by
  rw [SpecLevelDoc.toJson, Json.Good, goodPairs_iff]
  refine ⟨by simp [WinLevelDoc.pairs], ?_⟩
  intro q hq
  rw [List.mem_append] at hq
  rcases hq with hq | hq
  · exact good_winPairs h.1 q hq
  · simp only [List.mem_cons, List.not_mem_nil, or_false] at hq
    rcases hq with rfl | rfl
    exacts [good_int _, good_numList h.2]

theorem good_levels {L : Type} {level : L → Prop} {enc : L → Json} (hl : ∀ l, level l → (enc l).Good) {m : LevelsDoc L}
    (h : m.Fits level) : ∀ q ∈ m.pairs enc, q.2.Good := by
  obtain ⟨h1, h2, h3, h4, h5, h6, h7⟩ := h
  intro q hq
  unfold LevelsDoc.pairs at hq
  rw [List.mem_append, List.mem_append] at hq
  rcases hq with hq | hq | hq
  · simp only [List.mem_cons, List.not_mem_nil, or_false] at hq
    rcases hq with rfl | rfl | rfl | rfl | rfl | rfl | rfl
    exacts [good_fileInfo _, good_numList h2, good_strList _, good_int _, good_int _, good_time _, good_time _]
  · exact good_site h5 q hq
  · simp only [List.mem_cons, List.not_mem_nil, or_false] at hq
    rcases hq with rfl | rfl
    exacts [good_chans h6, good_items enc m.levels fun l hx => hl l (h7 l hx)]

theorem good_decDoc {m : DecDoc} (h : m.Fits) : m.toJson.Good := by
  rw [DecDoc.toJson, Json.Good, goodPairs_iff]
  refine ⟨by rw [List.map_append, levels_keys]; simp [levelsKeys], ?_⟩
  intro q hq
  rw [List.mem_append] at hq
  rcases hq with hq | hq
  · exact good_levels (fun l hl => good_decLevel hl) h.1 q hq
  · simp only [List.mem_cons, List.not_mem_nil, or_false] at hq
    rw [hq]
    exact good_history h.2

theorem good_winDoc {m : WinDoc} (h : m.Fits) : m.toJson.Good := by
  rw [WinDoc.toJson, Json.Good, goodPairs_iff]
  refine ⟨by rw [List.map_append, levels_keys]; simp [levelsKeys], ?_⟩
  intro q hq
  rw [List.mem_append] at hq
  rcases hq with hq | hq
  · exact good_levels (fun l hl => good_winLevel hl) h.1 q hq
  · simp only [List.mem_cons, List.not_mem_nil, or_false] at hq
    rcases hq with rfl | rfl
    exacts [good_time _, good_history h.2.2]

theorem good_specDoc {m : SpecDoc} (h : m.Fits) : m.toJson.Good := by
  rw [SpecDoc.toJson, Json.Good, goodPairs_iff]
  refine ⟨by rw [List.map_append, levels_keys]; simp [levelsKeys], ?_⟩
  intro q hq
  rw [List.mem_append] at hq
  rcases hq with hq | hq
  · exact good_levels (fun l hl => good_specLevel hl) h.1 q hq
  · simp only [List.mem_cons, List.not_mem_nil, or_false] at hq
    rcases hq with rfl | rfl
    exacts [good_time _, good_history h.2.2]

theorem good_serial (s : Serial) : s.toJson.Good := by cases s <;> exact trivial

theorem good_calDoc {env : Reading} {m : CalDoc} (h : m.Fits env) : m.toJson.Good := by
  obtain ⟨h1, h2, h3, h4, h5, h6, h7⟩ := h
  have := h4.1
  simp [CalDoc.toJson, Json.Good, GoodPairs, good_fileInfo, good_optStr, good_serial, this, good_numList h5, good_numList h6,
    good_numList h7, pyInt_good]

theorem good_projectDoc (m : ProjectDoc) : m.toJson.Good := by
  simp [ProjectDoc.toJson, Json.Good, GoodPairs, good_fileInfo, good_time, good_strList, PyNum.Good]

theorem good_combined {m : CombinedDoc} (h : m.Fits) : m.toJson.Good := by
  obtain ⟨h1, h2, h3, h4, h5, h6⟩ := h
  rw [CombinedDoc.toJson, Json.Good, goodPairs_iff]
  refine ⟨by simp [SiteDoc.pairs], ?_⟩
  intro q hq
  rw [List.mem_append, List.mem_append] at hq
  rcases hq with hq | hq | hq
  · simp only [List.mem_cons, List.not_mem_nil, or_false] at hq
    rcases hq with rfl | rfl | rfl
    exacts [good_fileInfo _, good_str _, good_num h2]
  · exact good_site h3 q hq
  · simp only [List.mem_cons, List.not_mem_nil, or_false] at hq
    rcases hq with rfl | rfl | rfl | rfl | rfl
    exacts [good_optStrList _, good_strList _, good_int _, good_numList h4,
      good_entries historyJson m.histories h5 fun q hq => good_history (h6 q hq)]

theorem good_contributor {c : Contributor} (h : c.Fits) : c.toJson.Good := by
  cases c with
  | combined m => exact good_combined h
  | spectra m => exact good_specDoc h

theorem good_component {c : ComponentDoc} (h : c.Fits) : c.toJson.Good := by
  simp [ComponentDoc.toJson, Json.Good, GoodPairs, good_numList h.1, good_numList h.2]

theorem good_tf (tf : TransFunc) : (tfJson tf).Good := by
  simp [tfJson, Json.Good, GoodPairs, good_strList, PyNum.Good]

theorem good_solutionDoc {env : Reading} {m : SolutionDoc} (h : m.Fits env) : m.toJson.Good := by
  obtain ⟨h1, h2, h3, ⟨h4, h4'⟩, h5, h6, h6'⟩ := h
  rw [SolutionDoc.toJson, Json.Good, goodPairs_iff]
  refine ⟨by simp, ?_⟩
  intro q hq
  simp only [List.mem_cons, List.not_mem_nil, or_false] at hq
  rcases hq with rfl | rfl | rfl | rfl | rfl | rfl
  exacts [good_fileInfo _, good_tf _, good_numList h3, good_entries ComponentDoc.toJson _ h4 fun q hq => good_component (h4' q hq),
    good_history h5, good_entries Contributor.toJson _ h6 fun q hq => good_contributor (h6' q hq)]

end Doc

end Resistics
