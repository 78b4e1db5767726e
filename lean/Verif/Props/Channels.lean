import Verif.Lemmas.Except
import Verif.Model.Channels
import Verif.Props.Gather
import Verif.Props.ProjectFiles

/-!
# C65: channel types and channel metadata
-/

namespace Resistics

/-! ## Specification -/

/-- The type that a channel name implies. -/
inductive ImpliesType : String → String → Prop
  | ex : ImpliesType "Ex" "electric"
  | ey : ImpliesType "Ey" "electric"
  | e1 : ImpliesType "E1" "electric"
  | e2 : ImpliesType "E2" "electric"
  | e3 : ImpliesType "E3" "electric"
  | e4 : ImpliesType "E4" "electric"
  | hx : ImpliesType "Hx" "magnetic"
  | hy : ImpliesType "Hy" "magnetic"
  | hz : ImpliesType "Hz" "magnetic"
  | bx : ImpliesType "Bx" "magnetic"
  | by : ImpliesType "By" "magnetic"
  | bz : ImpliesType "Bz" "magnetic"

/-- The metadata describe exactly the listed channels. -/
def TimeInfo.Described (t : TimeInfo) : Prop :=
  (t.chansMeta.map Prod.fst).Nodup ∧ ∀ c, c ∈ t.chans ↔ ∃ i, (c, i) ∈ t.chansMeta

/-- The type of a channel of a recording. -/
def TimeInfo.HasType (t : TimeInfo) (chan type : String) : Prop := chan ∈ t.chans ∧ ∃ i, (chan, i) ∈ t.chansMeta ∧ i.chanType = type

/-! ## Names -/

theorem implies_electric (c : String) : c ∈ electricChans ↔ ImpliesType c "electric" := by
  unfold electricChans
  constructor
  · intro h
    simp only [List.mem_cons, List.not_mem_nil, or_false] at h
    rcases h with rfl | rfl | rfl | rfl | rfl | rfl <;> constructor
  · intro h; generalize ht : "electric" = t at h; cases h <;> first | decide | (exact absurd ht (by decide))

theorem implies_magnetic (c : String) : c ∈ magneticChans ↔ ImpliesType c "magnetic" := by
  unfold magneticChans
  constructor
  · intro h
    simp only [List.mem_cons, List.not_mem_nil, or_false] at h
    rcases h with rfl | rfl | rfl | rfl | rfl | rfl <;> constructor
  · intro h; generalize ht : "magnetic" = t at h; cases h <;> first | decide | (exact absurd ht (by decide))

theorem implies_two {c t : String} (h : ImpliesType c t) : t = "electric" ∨ t = "magnetic" := by
  cases h <;> first | exact .inl rfl | exact .inr rfl

theorem not_both (c : String) (h : c ∈ electricChans) : c ∉ magneticChans := by
  unfold electricChans at h
  simp only [List.mem_cons, List.not_mem_nil, or_false] at h
  rcases h with rfl | rfl | rfl | rfl | rfl | rfl <;> decide

/-- **C65 (names)**: the type of a channel name is that of the twelve known names, and only that; any other name is a `ValueError`; no name
is both electric and magnetic. -/
theorem C65_names (c : String) :
    (∀ t, getChanType c = .ok t ↔ ImpliesType c t) ∧
    ((∀ t, ¬ ImpliesType c t) → getChanType c = .error .value) ∧
    (isElectric c = true ↔ ImpliesType c "electric") ∧ (isMagnetic c = true ↔ ImpliesType c "magnetic") ∧
    ¬ (isElectric c = true ∧ isMagnetic c = true) := by
  have he : isElectric c = true ↔ ImpliesType c "electric" := by
    rw [← implies_electric]; unfold isElectric; split <;> simp_all
  have hm : isMagnetic c = true ↔ ImpliesType c "magnetic" := by
    rw [← implies_magnetic]; unfold isMagnetic; split <;> simp_all
  have hn : ¬ (isElectric c = true ∧ isMagnetic c = true) := by
    rintro ⟨h1, h2⟩
    rw [he, ← implies_electric] at h1
    rw [hm, ← implies_magnetic] at h2
    exact not_both c h1 h2
  refine ⟨?_, ?_, he, hm, hn⟩
  · intro t
    unfold getChanType
    by_cases h1 : isElectric c = true
    · rw [if_pos h1]
      constructor
      · intro h; cases h; exact he.mp h1
      · intro h
        rcases implies_two h with rfl | rfl
        · rfl
        · exact absurd ⟨h1, hm.mpr h⟩ hn
    · rw [if_neg h1]
      by_cases h2 : isMagnetic c = true
      · rw [if_pos h2]
        constructor
        · intro h; cases h; exact hm.mp h2
        · intro h
          rcases implies_two h with rfl | rfl
          · exact absurd (he.mpr h) h1
          · rfl
      · rw [if_neg h2]
        constructor
        · intro h; cases h
        · intro h
          rcases implies_two h with rfl | rfl
          · exact absurd (he.mpr h) h1
          · exact absurd (hm.mpr h) h2
  · intro h
    unfold getChanType
    rw [if_neg (fun h1 => h _ (he.mp h1)), if_neg (fun h1 => h _ (hm.mp h1))]

/-! ## Channel metadata -/

/-- **C65 (new channel metadata)**: a type that is given is kept, whatever the name; without one the type is that of the name, and an
unknown name is refused; the name is kept, and a single data file becomes a list of one. -/
theorem C65_created (name : String) (files : FilesArg) :
    (∀ t, makeChan { name := some name, dataFiles := files, chanType := some t } = .ok ⟨name, files.validate, t⟩) ∧
    (∀ t, ImpliesType name t → makeChan { name := some name, dataFiles := files } = .ok ⟨name, files.validate, t⟩) ∧
    ((∀ t, ¬ ImpliesType name t) → makeChan { name := some name, dataFiles := files } = .error .value) ∧
    (∀ f, files = .one f → files.validate = some [f]) ∧ (∀ l, files = .many l → files.validate = some l) ∧
    (files = .none → files.validate = none) := by
  refine ⟨fun t => rfl, ?_, ?_, ?_, ?_, ?_⟩
  · intro t ht
    have := ((C65_names name).1 t).mpr ht
    simp [makeChan, validateChanType, this, bind, Except.bind]
  · intro h
    have := (C65_names name).2.1 h
    simp [makeChan, validateChanType, this, bind, Except.bind]
  · rintro f rfl; rfl
  · rintro l rfl; rfl
  · rintro rfl; rfl

/-- **C65 (limit)**: channel metadata without a name are refused, but without a type too it is with a `KeyError`, not a validation
error. -/
theorem C65_without_name (files : FilesArg) :
    makeChan { dataFiles := files } = .error .key ∧ ∀ t, makeChan { dataFiles := files, chanType := some t } = .error .value :=
  ⟨rfl, fun _ => rfl⟩

/-- **C65 (assignment)**: setting the type to a text changes the type only; setting it to `None` gives the type of the present name, or
is refused and changes nothing. -/
theorem C65_assigned (c : ChanInfo) :
    (∀ t, c.setType (some t) = (.ok (), { c with chanType := t })) ∧
    (∀ t, ImpliesType c.name t → c.setType none = (.ok (), { c with chanType := t })) ∧
    ((∀ t, ¬ ImpliesType c.name t) → c.setType none = (.error .value, c)) := by
  refine ⟨fun t => rfl, ?_, ?_⟩
  · intro t ht
    have := ((C65_names c.name).1 t).mpr ht
    simp [ChanInfo.setType, validateChanType, this]
  · intro h
    have := (C65_names c.name).2.1 h
    simp [ChanInfo.setType, validateChanType, this]

/-- **C65 (limit)**: a channel that is given another name keeps its type: an `Ex` that is renamed to `Hx` stays electric until the type
is set again. -/
theorem C65_renamed (c : ChanInfo) (name : String) :
    (c.setName name).chanType = c.chanType ∧ (c.setName name).name = name ∧ (c.setName name).dataFiles = c.dataFiles ∧
    ∀ t, ImpliesType name t → ((c.setName name).setType none).2.chanType = t := by
  refine ⟨rfl, rfl, rfl, fun t ht => ?_⟩
  rw [(C65_assigned (c.setName name)).2.1 t ht]

/-! ## Channels of a recording -/

theorem dictGet_mem {t : TimeInfo} (hd : (t.chansMeta.map Prod.fst).Nodup) {c : String} {i : ChanInfo} (h : (c, i) ∈ t.chansMeta) :
    dictGet t.chansMeta c = .ok i := by
  unfold dictGet
  rw [lookup_keyed hd h]

theorem made_from {α β : Type} {f : α → Except Err β} {l : List α} {r : List β} (h : l.mapM f = .ok r) {b : β} (hb : b ∈ r) :
    ∃ a ∈ l, f a = .ok b := by
  have hf := mapM_ok_iff.mp h
  clear h
  induction hf with
  | nil => simp at hb
  | cons h1 _ ih =>
    rcases List.mem_cons.mp hb with rfl | hb
    · exact ⟨_, List.mem_cons_self, h1⟩
    · obtain ⟨a, ha, hab⟩ := ih hb
      exact ⟨a, List.mem_cons_of_mem _ ha, hab⟩

theorem made_of {α β : Type} {f : α → Except Err β} {l : List α} {r : List β} (h : l.mapM f = .ok r) {a : α} (ha : a ∈ l) :
    ∃ b ∈ r, f a = .ok b := by
  have hf := mapM_ok_iff.mp h
  clear h
  induction hf with
  | nil => simp at ha
  | cons h1 _ ih =>
    rcases List.mem_cons.mp ha with rfl | ha
    · exact ⟨_, List.mem_cons_self, h1⟩
    · obtain ⟨b, hb, hab⟩ := ih ha
      exact ⟨b, List.mem_cons_of_mem _ hb, hab⟩

theorem chansWhere_run (t : TimeInfo) (hd : t.Described) (p : ChanInfo → Bool) :
    ∃ l, t.chansWhere p = .ok l ∧ l.Sublist t.chans ∧
      ∀ c, c ∈ l ↔ c ∈ t.chans ∧ ∃ i, (c, i) ∈ t.chansMeta ∧ p i = true := by
  have hex : ∀ c ∈ t.chans, ∃ q, t.withInfo c = .ok q := by
    intro c hc
    obtain ⟨i, hi⟩ := (hd.2 c).mp hc
    exact ⟨(c, i), by unfold TimeInfo.withInfo; rw [dictGet_mem hd.1 hi]; rfl⟩
  obtain ⟨l, hl⟩ := mapM_total hex
  refine ⟨(l.filter fun q => p q.2).map Prod.fst, ?_, ?_, ?_⟩
  · unfold TimeInfo.chansWhere
    rw [hl]; rfl
  · have hf := mapM_ok_iff.mp hl
    have hmap : l.map Prod.fst = t.chans := by
      clear hl
      generalize t.chans = cs at hf hex
      induction hf with
      | nil => rfl
      | cons h1 _ ih =>
        simp only [List.map_cons]
        rw [ih (fun c hc => hex c (List.mem_cons_of_mem _ hc))]
        congr 1
        unfold TimeInfo.withInfo at h1
        cases hg : dictGet t.chansMeta _ with
        | error e => rw [hg] at h1; cases h1
        | ok i => rw [hg] at h1; cases h1; rfl
    rw [← hmap]
    exact List.Sublist.map _ List.filter_sublist
  · intro c
    have hmem : ∀ q, q ∈ l ↔ q.1 ∈ t.chans ∧ q ∈ t.chansMeta := by
      intro q
      constructor
      · intro hq
        obtain ⟨c, hc, hcq⟩ := made_from hl hq
        obtain ⟨i, hi⟩ := (hd.2 c).mp hc
        unfold TimeInfo.withInfo at hcq
        rw [dictGet_mem hd.1 hi] at hcq
        cases hcq
        exact ⟨hc, hi⟩
      · rintro ⟨h1, h2⟩
        obtain ⟨q', hq', hcq⟩ := made_of hl h1
        unfold TimeInfo.withInfo at hcq
        rw [dictGet_mem hd.1 (i := q.2) h2] at hcq
        cases hcq
        exact hq'
    simp only [List.mem_map, List.mem_filter]
    constructor
    · rintro ⟨q, ⟨h1, h2⟩, rfl⟩
      exact ⟨((hmem q).mp h1).1, q.2, ((hmem q).mp h1).2, h2⟩
    · rintro ⟨h1, i, h2, h3⟩
      exact ⟨(c, i), ⟨(hmem _).mpr ⟨h1, h2⟩, h3⟩, rfl⟩

/-- **C65 (channels of a type)**: `get_chans_with_type` returns exactly the channels with the type, in the order of the recording; the
electric and magnetic channels are those with the types of these names. -/
theorem C65_channels_of_type (t : TimeInfo) (hd : t.Described) (type : String) :
    (∃ l, t.getChansWithType type = .ok l ∧ l.Sublist t.chans ∧ ∀ c, c ∈ l ↔ t.HasType c type) ∧
    t.getElectricChans = t.getChansWithType "electric" ∧ t.getMagneticChans = t.getChansWithType "magnetic" := by
  refine ⟨?_, rfl, rfl⟩
  obtain ⟨l, h1, h2, h3⟩ := chansWhere_run t hd fun c => c.chanType = type
  refine ⟨l, h1, h2, fun c => ?_⟩
  rw [h3]
  unfold TimeInfo.HasType
  simp only [decide_eq_true_eq]

/-- **C65 (no metadata)**: when a listed channel has no metadata, asking for channels by type is a `KeyError`. -/
theorem C65_missing_metadata (t : TimeInfo) (c : String) (hc : c ∈ t.chans) (hm : ∀ i, (c, i) ∉ t.chansMeta) (type : String) :
    t.getChansWithType type = .error .key := by
  unfold TimeInfo.getChansWithType TimeInfo.chansWhere
  have hkey : ∀ x, ∀ e, t.withInfo x = .error e → e = .key := by
    intro x e h
    unfold TimeInfo.withInfo dictGet at h
    split at h
    · cases h
    · cases h; rfl
  cases h : t.chans.mapM t.withInfo with
  | error e =>
    obtain ⟨x, -, hx⟩ := mapM_error h
    rw [hkey x e hx]; rfl
  | ok l =>
    obtain ⟨b, -, hb⟩ := made_of h hc
    unfold TimeInfo.withInfo dictGet at hb
    split at hb
    · rename_i i hi
      exact absurd (lookup_some_mem hi) (hm i)
    · cases hb

/-- **C65 (types in use)**: `get_chan_types` lists each type in use once, in alphabetical order, and no other. -/
theorem C65_types (t : TimeInfo) (hd : t.Described) :
    t.getChanTypes.Pairwise (· < ·) ∧ ∀ type, type ∈ t.getChanTypes ↔ ∃ c, t.HasType c type := by
  refine ⟨sortedSet_increasing _, fun type => ?_⟩
  unfold TimeInfo.getChanTypes
  rw [mem_sortedSet]
  simp only [List.mem_map]
  constructor
  · rintro ⟨q, hq, rfl⟩
    exact ⟨q.1, (hd.2 q.1).mpr ⟨q.2, hq⟩, q.2, hq, rfl⟩
  · rintro ⟨c, -, i, hi, rfl⟩
    exact ⟨(c, i), hi, rfl⟩

/-- **C65 (any)**: `any_electric` and `any_magnetic` tell whether there is a channel of the type. -/
theorem C65_any (t : TimeInfo) (hd : t.Described) :
    (∃ b, t.anyElectric = .ok b ∧ (b = true ↔ ∃ c, t.HasType c "electric")) ∧
    (∃ b, t.anyMagnetic = .ok b ∧ (b = true ↔ ∃ c, t.HasType c "magnetic")) := by
  have key : ∀ (l : List String) (type : String), (∀ c, c ∈ l ↔ t.HasType c type) →
      ((if l.length = 0 then false else true) = true ↔ ∃ c, t.HasType c type) := by
    intro l type h
    cases l with
    | nil => simp only [List.length_nil, if_true, Bool.false_eq_true, false_iff]; rintro ⟨c, hc⟩; simpa using (h c).mpr hc
    | cons x xs => simp only [List.length_cons, Nat.add_eq_zero_iff, one_ne_zero, and_false, if_false, true_iff]
                   exact ⟨x, (h x).mp List.mem_cons_self⟩
  obtain ⟨⟨l, h1, -, h2⟩, he, -⟩ := C65_channels_of_type t hd "electric"
  obtain ⟨⟨l', h1', -, h2'⟩, -, hm⟩ := C65_channels_of_type t hd "magnetic"
  refine ⟨⟨_, ?_, key l _ h2⟩, ⟨_, ?_, key l' _ h2'⟩⟩
  · unfold TimeInfo.anyElectric; rw [he, h1]; rfl
  · unfold TimeInfo.anyMagnetic; rw [hm, h1']; rfl

/-! ## Time metadata from dictionaries -/

theorem nodup_eraseDups {α : Type} [BEq α] [LawfulBEq α] (l : List α) : l.eraseDups.Nodup := by
  induction hn : l.length using Nat.strong_induction_on generalizing l with
  | _ n ih =>
    cases l with
    | nil => simp
    | cons a as =>
      rw [List.eraseDups_cons, List.nodup_cons]
      constructor
      · rw [List.mem_eraseDups]; simp
      · refine ih _ ?_ _ rfl
        have := List.length_filter_le (fun b => !b == a) as
        simp only [List.length_cons] at hn
        omega

theorem getTimeInfo_ok {chans : Option (List String)} {n : Option ℤ} {d : List (String × ChanArgs)} {t : TimeInfo} :
    getTimeInfo chans n d = .ok t ↔ ∃ l entries, chans = some l ∧ l.eraseDups.mapM (chanEntry d) = .ok entries ∧
      t = ⟨l, n.getD l.length, entries⟩ := by
  unfold getTimeInfo
  cases chans with
  | none => simp [requiredChans, bind, Except.bind]
  | some l =>
    simp only [requiredChans, except_bind_ok, Except.ok.injEq, Option.some.injEq]
    cases n <;> simp [makeTimeInfo, validateNChans, bind, Except.bind, eq_comm]

theorem chanEntry_ok {d : List (String × ChanArgs)} {c : String} {q : String × ChanInfo} :
    chanEntry d c = .ok q ↔ ∃ a i, dictGet d c = .ok a ∧ makeChan a = .ok i ∧ q = (c, i) := by
  unfold chanEntry
  simp only [except_bind_ok, except_pure_ok]
  constructor
  · rintro ⟨a, h1, i, h2, h3⟩; exact ⟨a, i, h1, h2, h3.symm⟩
  · rintro ⟨a, i, h1, h2, h3⟩; exact ⟨a, h1, i, h2, h3.symm⟩

/-- **C65 (metadata from dictionaries)**: `get_time_metadata` describes exactly the listed channels, each with the metadata made from its
own dictionary; dictionaries of other channels are not used; the number of channels is the one given, else the number of names. -/
theorem C65_from_dictionaries (chans : List String) (n : Option ℤ) (d : List (String × ChanArgs)) (hk : (d.map Prod.fst).Nodup)
    (t : TimeInfo) (h : getTimeInfo (some chans) n d = .ok t) :
    t.Described ∧ t.chans = chans ∧ t.nChans = n.getD chans.length ∧
    ∀ c ∈ chans, ∃ a i, (c, a) ∈ d ∧ makeChan a = .ok i ∧ (c, i) ∈ t.chansMeta ∧ t.getChanInfo c = .ok i := by
  obtain ⟨l, entries, hl, he, rfl⟩ := getTimeInfo_ok.mp h
  cases hl
  have hkeys : entries.map Prod.fst = chans.eraseDups := by
    have hf := mapM_ok_iff.mp he
    clear he h
    generalize chans.eraseDups = cs at hf
    induction hf with
    | nil => rfl
    | cons h1 _ ih =>
      obtain ⟨a, i, -, -, rfl⟩ := chanEntry_ok.mp h1
      simp [ih]
  have hdesc : (⟨chans, n.getD chans.length, entries⟩ : TimeInfo).Described := by
    constructor
    · simp only
      rw [hkeys]; exact nodup_eraseDups _
    · intro c
      simp only
      rw [← List.mem_eraseDups, ← hkeys, List.mem_map]
      constructor
      · rintro ⟨q, hq, rfl⟩; exact ⟨q.2, hq⟩
      · rintro ⟨i, hi⟩; exact ⟨(c, i), hi, rfl⟩
  refine ⟨hdesc, rfl, rfl, fun c hc => ?_⟩
  obtain ⟨b, hb, hcb⟩ := made_of he (List.mem_eraseDups.mpr hc)
  obtain ⟨a, i, h1, h2, rfl⟩ := chanEntry_ok.mp hcb
  have ha : (c, a) ∈ d := by
    unfold dictGet at h1
    split at h1
    · rename_i x hx; cases h1; exact lookup_some_mem hx
    · cases h1
  refine ⟨a, i, ha, h2, hb, ?_⟩
  unfold TimeInfo.getChanInfo
  rw [if_pos (by exact hc)]
  exact dictGet_mem hdesc.1 hb

/-- **C65 (metadata from dictionaries, when)**: `get_time_metadata` succeeds exactly when every listed channel has a dictionary from which
its metadata can be made. -/
theorem C65_from_dictionaries_iff (chans : List String) (n : Option ℤ) (d : List (String × ChanArgs)) :
    (∃ t, getTimeInfo (some chans) n d = .ok t) ↔ ∀ c ∈ chans, ∃ a i, d.lookup c = some a ∧ makeChan a = .ok i := by
  have hg : ∀ c a, dictGet d c = .ok a ↔ d.lookup c = some a := by
    intro c a
    unfold dictGet
    cases d.lookup c <;> simp
  constructor
  · rintro ⟨t, h⟩ c hc
    obtain ⟨l, entries, hl, he, rfl⟩ := getTimeInfo_ok.mp h
    cases hl
    obtain ⟨b, -, hcb⟩ := made_of he (List.mem_eraseDups.mpr hc)
    obtain ⟨a, i, h1, h2, rfl⟩ := chanEntry_ok.mp hcb
    exact ⟨a, i, (hg c a).mp h1, h2⟩
  · intro h
    obtain ⟨entries, he⟩ := mapM_total (f := chanEntry d) (l := chans.eraseDups) (by
      intro c hc
      obtain ⟨a, i, h1, h2⟩ := h c (List.mem_eraseDups.mp hc)
      exact ⟨(c, i), chanEntry_ok.mpr ⟨a, i, (hg c a).mpr h1, h2, rfl⟩⟩)
    exact ⟨_, getTimeInfo_ok.mpr ⟨chans, entries, rfl, he, rfl⟩⟩

/-- **C65 (types by name)**: when no dictionary gives a type and each has the name of its channel, every listed channel is of exactly one of
the two types, that of its name. -/
theorem C65_types_by_name (chans : List String) (n : Option ℤ) (d : List (String × ChanArgs)) (hk : (d.map Prod.fst).Nodup)
    (hd : ∀ c a, (c, a) ∈ d → a.name = some c ∧ a.chanType = none) (t : TimeInfo) (h : getTimeInfo (some chans) n d = .ok t) :
    (∀ c ∈ chans, ∀ type, t.HasType c type ↔ ImpliesType c type) ∧
    (∃ e m, t.getElectricChans = .ok e ∧ t.getMagneticChans = .ok m ∧ ∀ c ∈ chans, (c ∈ e ∧ c ∉ m) ∨ (c ∉ e ∧ c ∈ m)) := by
  obtain ⟨hdesc, hch, -, hall⟩ := C65_from_dictionaries chans n d hk t h
  have key : ∀ c ∈ chans, ∀ type, t.HasType c type ↔ ImpliesType c type := by
    intro c hc type
    obtain ⟨a, i, ha, hi, hmem, -⟩ := hall c hc
    obtain ⟨hn, ht⟩ := hd c a ha
    have hi' : getChanType c = .ok i.chanType := by
      unfold makeChan validateChanType at hi
      rw [hn, ht] at hi
      simp only at hi
      cases hg : getChanType c with
      | error e => rw [hg] at hi; simp [bind, Except.bind] at hi
      | ok x => rw [hg] at hi; simp only [bind, Except.bind, Except.ok.injEq] at hi; rw [← hi]
    have h1 := ((C65_names c).1 i.chanType).mp hi'
    constructor
    · rintro ⟨-, i', h2, rfl⟩
      have e1 := lookup_keyed hdesc.1 hmem
      have e2 := lookup_keyed hdesc.1 h2
      rw [e1] at e2; cases e2; exact h1
    · intro h2
      have h3 := ((C65_names c).1 type).mpr h2
      rw [hi'] at h3
      cases h3
      exact ⟨by rw [hch]; exact hc, i, hmem, rfl⟩
  refine ⟨key, ?_⟩
  obtain ⟨⟨e, h1, -, h2⟩, he, -⟩ := C65_channels_of_type t hdesc "electric"
  obtain ⟨⟨m, h1', -, h2'⟩, -, hm⟩ := C65_channels_of_type t hdesc "magnetic"
  refine ⟨e, m, by rw [he, h1], by rw [hm, h1'], fun c hc => ?_⟩
  rw [h2, h2', key c hc, key c hc]
  obtain ⟨a, i, ha, hi, hmem, -⟩ := hall c hc
  have h3 := (key c hc i.chanType).mp ⟨by rw [hch]; exact hc, i, hmem, rfl⟩
  have hn := (C65_names c).2.2.2.2
  rw [(C65_names c).2.2.1, (C65_names c).2.2.2.1] at hn
  rcases implies_two h3 with h4 | h4 <;> rw [h4] at h3
  · exact .inl ⟨h3, fun h5 => hn ⟨h3, h5⟩⟩
  · exact .inr ⟨fun h5 => hn ⟨h5, h3⟩, h3⟩

/-- **C65 (limits)**: a number of channels that is given is kept even when it is wrong; a time dictionary without channels is a
`KeyError`. -/
theorem C65_number_of_channels (chans : List String) (entries : List (String × ChanInfo)) :
    (∀ n, makeTimeInfo (some chans) (some n) entries = .ok ⟨chans, n, entries⟩) ∧
    makeTimeInfo (some chans) none entries = .ok ⟨chans, chans.length, entries⟩ ∧
    makeTimeInfo none none entries = .error .key ∧ ∀ n d, getTimeInfo none n d = .error .key :=
  ⟨fun _ => rfl, rfl, rfl, fun _ _ => rfl⟩

/-- A recording of two electric channels, two magnetic ones and a channel whose type is given; one more dictionary is not used. -/
def demoChans : Except Err TimeInfo :=
  getTimeInfo (some ["Ex", "Hx", "T1", "Ey", "Hy"]) none
    [("Hy", { name := some "Hy" }), ("Ex", { name := some "Ex", dataFiles := .one "ex.npy" }), ("Ey", { name := some "Ey" }),
     ("Hz", { name := some "Hz" }), ("Hx", { name := some "Hx" }), ("T1", { name := some "T1", chanType := some "temperature" })]

example : ∃ t, demoChans = .ok t ∧ t.getElectricChans = .ok ["Ex", "Ey"] ∧ t.getMagneticChans = .ok ["Hx", "Hy"] ∧
    t.getChansWithType "temperature" = .ok ["T1"] ∧ t.nChans = 5 ∧ t.getChanInfo "Hz" = .error .chanNotFound ∧
    t.getChanTypes = ["electric", "magnetic", "temperature"] := ⟨_, rfl, by decide +kernel⟩

end Resistics
