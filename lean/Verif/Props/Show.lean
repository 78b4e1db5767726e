import Verif.Model.Show
import Verif.Props.TransFunc

/-!
# C61: displayed transfer functions
-/

namespace Resistics

/-! ## Text -/

/-- Only blanks. -/
def OnlyBlanks (s : String) : Prop := ∀ ch ∈ s.toList, ch = ' '

/-- `s` is the text `c` followed by blanks, of `w` characters in all. -/
def Cell (w : ℕ) (c s : String) : Prop := s.length = w ∧ ∃ b, OnlyBlanks b ∧ s = c ++ b

/-- The numbers of output and input channels are those of the lists (what the construction sets them to by default). -/
structure Counted (tf : TransFunc) : Prop where
  out : tf.nOut = tf.outChans.length
  inp : tf.nIn = tf.inChans.length

/-- The layout of one line: output channel, equals sign in the line `eq`, row of the tensor, input channel. -/
structure LineOf (tf : TransFunc) (m eq i : ℕ) (line : String) : Prop where
  parts : ∃ left tensor right,
    line = left ++ " " ++ (if i = eq then "=" else " ") ++ " " ++ tensor ++ " " ++ right ∧
    left.length = m + 4 ∧ tensor.length = tf.inChans.length * (2 * m + 2) + 3 ∧
    (∀ c, tf.outChans[i]? = some c → ∃ s, Cell m c s ∧ left = "| " ++ s ++ " |") ∧
    (tf.outChans[i]? = none → OnlyBlanks left ∧ OnlyBlanks tensor) ∧
    (∀ c, tf.inChans[i]? = some c → ∃ s, Cell m c s ∧ right = "| " ++ s ++ " |") ∧
    (tf.inChans[i]? = none → right = "") ∧
    (∀ c, tf.outChans[i]? = some c → ∃ cells : List String, cells.length = tf.inChans.length ∧
      (∀ (j : ℕ) (a s : String), tf.inChans[j]? = some a → cells[j]? = some s → Cell (2 * m + 1) (c ++ "_" ++ a) s) ∧
      tensor = "| " ++ String.join (cells.map (· ++ " ")) ++ "|")

theorem len_bar : ("| " : String).length = 2 := by decide
theorem len_bar' : (" |" : String).length = 2 := by decide
theorem len_one : ("|" : String).length = 1 := by decide
theorem len_under : ("_" : String).length = 1 := by decide
theorem len_blank : (" " : String).length = 1 := by decide

theorem padTo_cell (c : String) (w : ℕ) (h : c.length ≤ w) : Cell w c (padTo c w) := by
  refine ⟨?_, String.ofList (List.replicate (w - c.length) ' '), ?_, rfl⟩
  · unfold padTo
    rw [String.length_append, String.length_ofList, List.length_replicate]
    omega
  · intro ch hch
    rw [String.toList_ofList] at hch
    exact List.eq_of_mem_replicate hch

theorem padTo_blank (w : ℕ) : OnlyBlanks (padTo "" w) ∧ (padTo "" w).length = w := by
  obtain ⟨h1, b, hb, h2⟩ := padTo_cell "" w (by simp)
  refine ⟨?_, h1⟩
  rw [h2]
  simpa using hb

theorem tensorElements_eq (m : ℕ) (out : String) (ins : List String) :
    tensorElements ins m out = "| " ++ String.join ((ins.map fun c => padTo (out ++ "_" ++ c) (2 * m + 1)).map (· ++ " ")) := by
  unfold tensorElements
  have h : ∀ (ins : List String) (acc : String),
      ins.foldl (fun s c => s ++ (padTo (out ++ "_" ++ c) (2 * m + 1) ++ " ")) acc =
        acc ++ String.join ((ins.map fun c => padTo (out ++ "_" ++ c) (2 * m + 1)).map (· ++ " ")) := by
    intro ins
    induction ins with
    | nil => intro acc; simp
    | cons c cs ih =>
      intro acc
      rw [List.foldl_cons, ih]
      rw [← String.toList_inj]
      simp [String.toList_join]
  exact h ins "| "

theorem join_length (l : List String) (w : ℕ) (h : ∀ s ∈ l, s.length = w) : (String.join l).length = l.length * w := by
  rw [← String.length_toList, String.toList_join]
  induction l with
  | nil => simp
  | cons a l ih =>
    rw [List.flatMap_cons, List.length_append, ih fun s hs => h s (by simp [hs]), String.length_toList, h a (by simp)]
    simp only [List.length_cons]; ring

/-- The width is that of the longest name. -/
theorem pyMax_spec (l : List ℕ) (m : ℕ) (h : pyMax l = .ok m) : m ∈ l ∧ ∀ x ∈ l, x ≤ m := by
  match l, h with
  | a :: l, h =>
    simp only [pyMax, Except.ok.injEq] at h
    subst h
    clear h
    induction l generalizing a with
    | nil => simp
    | cons b l ih =>
      rw [List.foldl_cons]
      obtain ⟨h1, h2⟩ := ih (max a b)
      constructor
      · rcases List.mem_cons.mp h1 with h | h
        · rw [h]
          rcases max_choice a b with h' | h' <;> rw [h'] <;> simp
        · simp [h]
      · intro x hx
        have h3 := h2 (max a b) (by simp)
        rcases List.mem_cons.mp hx with rfl | hx
        · exact le_trans (le_max_left _ _) h3
        · rcases List.mem_cons.mp hx with rfl | hx
          · exact le_trans (le_max_right _ _) h3
          · exact h2 x (by simp [hx])

theorem textLine_ok (tf : TransFunc) (ht : Counted tf) (m eq i : ℕ)
    (hm : ∀ c ∈ tf.inChans ++ tf.outChans, c.length ≤ m) :
    ∃ line, tf.textLine m eq i = .ok (line ++ "\n") ∧ LineOf tf m eq i line := by
  have hin : ∃ right, tf.inChanString i m = .ok right ∧
      (∀ c, tf.inChans[i]? = some c → ∃ s, Cell m c s ∧ right = "| " ++ s ++ " |") ∧ (tf.inChans[i]? = none → right = "") := by
    unfold TransFunc.inChanString
    rw [ht.inp]
    by_cases hi : i < tf.inChans.length
    · rw [if_neg (by omega), pyIndex_natCast _ _ hi]
      refine ⟨_, rfl, ?_, ?_⟩
      · intro c hc
        rw [List.getElem?_eq_getElem hi, Option.some.injEq] at hc
        subst hc
        exact ⟨_, padTo_cell _ m (hm _ (by simp)), rfl⟩
      · intro hn; rw [List.getElem?_eq_getElem hi] at hn; simp at hn
    · rw [if_pos (by omega)]
      refine ⟨_, rfl, ?_, fun _ => rfl⟩
      intro c hc; rw [List.getElem?_eq_none (by omega)] at hc; simp at hc
  obtain ⟨right, hr, hr1, hr2⟩ := hin
  by_cases hi : i < tf.outChans.length
  · have ho : tf.outChanString i m = .ok ("| " ++ padTo tf.outChans[i] m ++ " |") := by
      unfold TransFunc.outChanString
      rw [ht.out, if_neg (by omega), pyIndex_natCast _ _ hi]; rfl
    have hte : tf.tensorString i m = .ok (tensorElements tf.inChans m tf.outChans[i] ++ "|") := by
      unfold TransFunc.tensorString
      rw [ht.out, if_neg (by omega), pyIndex_natCast _ _ hi]; rfl
    refine ⟨_, by unfold TransFunc.textLine; rw [ho, hr, hte]; rfl, ⟨_, _, _, rfl, ?_, ?_, ?_, ?_, hr1, hr2, ?_⟩⟩
    · rw [String.length_append, String.length_append, (padTo_cell _ m (hm _ (by simp))).1]
      rw [len_bar, len_bar']; omega
    · rw [tensorElements_eq, String.length_append, String.length_append, join_length _ (2 * m + 2)]
      · rw [len_bar, len_one, List.length_map, List.length_map]; omega
      · intro s hs
        simp only [List.mem_map] at hs
        obtain ⟨a, ⟨b, hb, rfl⟩, rfl⟩ := hs
        have h1 := hm b (by simp [hb])
        have h2 := hm tf.outChans[i] (by simp)
        rw [String.length_append, (padTo_cell _ (2 * m + 1) (by rw [String.length_append, String.length_append, len_under]; omega)).1, len_blank]
    · intro c hc
      rw [List.getElem?_eq_getElem hi, Option.some.injEq] at hc
      subst hc
      exact ⟨_, padTo_cell _ m (hm _ (by simp)), rfl⟩
    · intro hn; rw [List.getElem?_eq_getElem hi] at hn; simp at hn
    · intro c hc
      rw [List.getElem?_eq_getElem hi, Option.some.injEq] at hc
      subst hc
      refine ⟨tf.inChans.map fun c => padTo (tf.outChans[i] ++ "_" ++ c) (2 * m + 1), by simp, ?_, ?_⟩
      · intro j a s ha hs
        rw [List.getElem?_map, ha] at hs
        simp only [Option.map_some, Option.some.injEq] at hs
        subst hs
        have h1 := hm a (by simp [List.mem_of_getElem? ha])
        have h2 := hm tf.outChans[i] (by simp)
        exact padTo_cell _ _ (by rw [String.length_append, String.length_append, len_under]; omega)
      · rw [tensorElements_eq]
  · have ho : tf.outChanString i m = .ok (padTo "" (m + 4)) := by
      unfold TransFunc.outChanString
      rw [ht.out, if_pos (by omega)]
    have hte : tf.tensorString i m = .ok (padTo "" (((m * 2 + 1) + 1) * tf.inChans.length + 3)) := by
      unfold TransFunc.tensorString
      rw [ht.out, if_pos (by omega), ht.inp]; rfl
    have hnone : tf.outChans[i]? = none := List.getElem?_eq_none (by omega)
    refine ⟨_, by unfold TransFunc.textLine; rw [ho, hr, hte]; rfl, ⟨_, _, _, rfl, ?_, ?_, ?_, ?_, hr1, hr2, ?_⟩⟩
    · exact (padTo_blank _).2
    · rw [(padTo_blank _).2]; ring
    · intro c hc; rw [hnone] at hc; simp at hc
    · exact fun _ => ⟨(padTo_blank _).1, (padTo_blank _).1⟩
    · intro c hc; rw [hnone] at hc; simp at hc

/-- The last character of a line is a bar or a blank. -/
theorem LineOf.last {tf : TransFunc} {m eq i : ℕ} {line : String} (h : LineOf tf m eq i line) :
    ∃ pre ch, line.toList = pre ++ [ch] ∧ (ch = '|' ∨ ch = ' ') := by
  obtain ⟨left, tensor, right, rfl, -, -, -, -, h1, h2, -⟩ := h.parts
  cases hc : tf.inChans[i]? with
  | none =>
    rw [h2 hc]
    refine ⟨(left ++ " " ++ (if i = eq then "=" else " ") ++ " " ++ tensor).toList, ' ', ?_, Or.inr rfl⟩
    simp
  | some c =>
    obtain ⟨s, -, rfl⟩ := h1 c hc
    refine ⟨(left ++ " " ++ (if i = eq then "=" else " ") ++ " " ++ tensor ++ " " ++ ("| " ++ s ++ " ")).toList, '|', ?_, Or.inl rfl⟩
    simp

theorem rstrip_lines (lines : List String) (hne : lines ≠ [])
    (h : ∀ l ∈ lines, ∃ pre ch, l.toList = pre ++ [ch] ∧ (ch = '|' ∨ ch = ' ')) :
    rstripNewlines ((lines.map (· ++ "\n")).foldl (· ++ ·) "") = String.intercalate "\n" lines := by
  have hfold : ∀ (ls : List String) (acc : String), ls.foldl (· ++ ·) acc = acc ++ String.join ls := by
    intro ls
    induction ls with
    | nil => intro acc; simp
    | cons a ls ih => intro acc; rw [List.foldl_cons, ih, ← String.toList_inj]; simp [String.toList_join]
  have hjoin : (String.join (lines.map (· ++ "\n"))).toList = (String.intercalate "\n" lines).toList ++ ['\n'] ∧
      ∃ pre ch, (String.intercalate "\n" lines).toList = pre ++ [ch] ∧ (ch = '|' ∨ ch = ' ') := by
    induction lines with
    | nil => exact absurd rfl hne
    | cons a ls ih =>
      by_cases hls : ls = []
      · subst hls
        refine ⟨by simp [String.toList_join, String.toList_intercalate], ?_⟩
        obtain ⟨pre, ch, h1, h2⟩ := h a (by simp)
        exact ⟨pre, ch, by simpa [String.toList_intercalate] using h1, h2⟩
      · obtain ⟨h1, pre, ch, h2, h3⟩ := ih hls fun l hl => h l (by simp [hl])
        obtain ⟨b, bs, rfl⟩ := List.exists_cons_of_ne_nil hls
        have hcons : (String.intercalate "\n" (a :: b :: bs)).toList =
            a.toList ++ ['\n'] ++ (String.intercalate "\n" (b :: bs)).toList := by
          simp [String.toList_intercalate, List.intercalate]
        constructor
        · rw [hcons]
          have : (String.join ((a :: b :: bs).map (· ++ "\n"))).toList =
              a.toList ++ ['\n'] ++ (String.join ((b :: bs).map (· ++ "\n"))).toList := by
            simp [String.toList_join]
          rw [this, h1]
          simp only [List.append_assoc]
        · exact ⟨a.toList ++ ['\n'] ++ pre, ch, by rw [hcons, h2]; simp, h3⟩
  obtain ⟨h1, pre, ch, h2, h3⟩ := hjoin
  rw [hfold, ← String.toList_inj]
  unfold rstripNewlines
  rw [String.toList_ofList, String.toList_append]
  rw [h1, h2]
  have hc : (decide (ch = '\n')) = false := by
    rcases h3 with rfl | rfl <;> decide
  simp [hc, List.dropWhile]

/-- **C61**. The text of a transfer function has a line for each output or input channel, in order.  Its columns line up: in
every line the names of the output channel, the row of the tensor and the input channel start at the same place, each row
of the tensor has the components of the output channel with all input channels in order, and the equals sign is in the
middle line. -/
theorem C61_text (tf : TransFunc) (ht : Counted tf) (hne : tf.inChans ++ tf.outChans ≠ []) :
    ∃ (m : ℕ) (lines : List String), tf.toText = .ok (String.intercalate "\n" lines) ∧
      (∀ c ∈ tf.inChans ++ tf.outChans, c.length ≤ m) ∧ (∃ c ∈ tf.inChans ++ tf.outChans, c.length = m) ∧
      lines.length = max tf.inChans.length tf.outChans.length ∧
      ∀ i line, lines[i]? = some line → LineOf tf m ((lines.length - 1) / 2) i line := by
  obtain ⟨m, hm⟩ : ∃ m, pyMax (tf.inChans.map String.length ++ tf.outChans.map String.length) = .ok m := by
    rw [← List.map_append]
    obtain ⟨a, l, hl⟩ := List.exists_cons_of_ne_nil hne
    rw [hl]
    exact ⟨_, rfl⟩
  obtain ⟨hmem, hmax⟩ := pyMax_spec _ m hm
  rw [← List.map_append] at hmem hmax
  have hle : ∀ c ∈ tf.inChans ++ tf.outChans, c.length ≤ m := fun c hc => hmax _ (List.mem_map_of_mem hc)
  set n := max tf.inChans.length tf.outChans.length with hn
  choose line h1 h2 using fun i => textLine_ok tf ht m ((n - 1) / 2) i hle
  have hmap : (List.range n).mapM (tf.textLine m ((n - 1) / 2)) = .ok (((List.range n).map line).map (· ++ "\n")) := by
    rw [List.map_map]
    exact mapM_ok_map fun i _ => h1 i
  have hnpos : 0 < n := by
    rcases hi : tf.inChans with _ | ⟨a, l⟩
    · rcases ho : tf.outChans with _ | ⟨b, l⟩
      · rw [hi, ho] at hne; simp at hne
      · rw [hn, ho]; simp
    · rw [hn, hi]; simp
  refine ⟨m, (List.range n).map line, ?_, hle, ?_, by simp, ?_⟩
  · unfold TransFunc.toText
    simp only [bind, Except.bind]
    rw [hm]
    simp only
    rw [← hn, hmap]
    simp only [pure, Except.pure]
    rw [rstrip_lines _ (by simp; omega)]
    intro l hl
    obtain ⟨i, -, rfl⟩ := List.mem_map.mp hl
    exact (h2 i).last
  · obtain ⟨c, hc, hcm⟩ := List.mem_map.mp hmem
    exact ⟨c, hc, hcm⟩
  · intro i l hl
    rw [List.getElem?_map, Option.map_eq_some_iff] at hl
    obtain ⟨j, hj, rfl⟩ := hl
    rw [List.getElem?_eq_some_iff] at hj
    obtain ⟨hlt, hj⟩ := hj
    simp only [List.getElem_range] at hj
    subst hj
    simp only [List.length_map, List.length_range]
    exact h2 i

/-- **C61**. A transfer function without channels has no text. -/
theorem C61_text_no_channels (tf : TransFunc) (hi : tf.inChans = []) (ho : tf.outChans = []) : tf.toText = .error .value := by
  unfold TransFunc.toText
  rw [hi, ho]
  rfl

/-- A channel name that can be told apart in the text: it has characters, none of them a blank or a line break. -/
def PlainName (c : String) : Prop := c.toList ≠ [] ∧ ∀ ch ∈ c.toList, ch ≠ ' ' ∧ ch ≠ '\n'

/-- The name of the output channel in a line. -/
def leftName (l : List Char) : Option (List Char) :=
  if l.head? = some '|' then some ((l.drop 2).takeWhile (· ≠ ' ')) else none

/-- The name of the input channel in a line, from the line's end. -/
def rightName (l : List Char) : Option (List Char) :=
  if l.reverse.head? = some '|' then some (((l.reverse.drop 2).dropWhile (· = ' ')).takeWhile (· ≠ ' ')).reverse else none

theorem takeWhile_name (c rest : List Char) (hc : ∀ ch ∈ c, ch ≠ ' ') : (c ++ ' ' :: rest).takeWhile (· ≠ ' ') = c := by
  rw [List.takeWhile_append_of_pos (by simpa using hc)]
  simp

theorem dropWhile_blanks (b rest : List Char) (hb : ∀ ch ∈ b, ch = ' ') :
    (b ++ rest).dropWhile (· = ' ') = rest.dropWhile (· = ' ') :=
  List.dropWhile_append_of_pos (by simpa using hb)

theorem LineOf.left {tf : TransFunc} {m eq i : ℕ} {line : String} (h : LineOf tf m eq i line)
    (hp : ∀ c ∈ tf.inChans ++ tf.outChans, PlainName c) : leftName line.toList = (tf.outChans[i]?).map String.toList := by
  obtain ⟨left, tensor, right, rfl, hlen, -, h1, h2, -, -, -⟩ := h.parts
  cases hc : tf.outChans[i]? with
  | none =>
    obtain ⟨hb, -⟩ := h2 hc
    have : left.toList.length = m + 4 := by rw [String.length_toList]; exact hlen
    obtain ⟨a, l, hl⟩ := List.exists_cons_of_length_pos (l := left.toList) (by omega)
    have ha : a = ' ' := hb a (by rw [hl]; simp)
    unfold leftName
    simp [hl, ha]
  | some c =>
    obtain ⟨s, ⟨-, b, hb, rfl⟩, rfl⟩ := h1 c hc
    have hcn := hp c (by simp [List.mem_of_getElem? hc])
    unfold leftName
    have hlist : ∀ x : String, ("| " ++ (c ++ b) ++ " |" ++ " " ++ (if i = eq then "=" else " ") ++ " " ++ tensor ++ " " ++ x).toList =
        '|' :: ' ' :: (c.toList ++ (b.toList ++ ' ' :: '|' :: ' ' ::
          (((if i = eq then "=" else " ") : String).toList ++ (' ' :: (tensor.toList ++ ' ' :: x.toList))))) := by
      intro x; simp
    rw [hlist]
    simp only [List.head?_cons, if_true, List.drop_succ_cons, List.drop_zero, Option.map_some, Option.some.injEq]
    rcases hbl : b.toList with _ | ⟨x, xs⟩
    · exact takeWhile_name _ _ fun ch hch => (hcn.2 ch hch).1
    · have hx : x = ' ' := hb x (by rw [hbl]; simp)
      subst hx
      rw [List.cons_append]
      exact takeWhile_name _ _ fun ch hch => (hcn.2 ch hch).1

theorem LineOf.right {tf : TransFunc} {m eq i : ℕ} {line : String} (h : LineOf tf m eq i line)
    (hp : ∀ c ∈ tf.inChans ++ tf.outChans, PlainName c) : rightName line.toList = (tf.inChans[i]?).map String.toList := by
  obtain ⟨left, tensor, right, rfl, -, -, -, -, h1, h2, -⟩ := h.parts
  cases hc : tf.inChans[i]? with
  | none =>
    rw [h2 hc]
    unfold rightName
    simp
  | some c =>
    obtain ⟨s, ⟨-, b, hb, rfl⟩, rfl⟩ := h1 c hc
    have hcn := hp c (by simp [List.mem_of_getElem? hc])
    have hlist : (left ++ " " ++ (if i = eq then "=" else " ") ++ " " ++ tensor ++ " " ++ ("| " ++ (c ++ b) ++ " |")).toList.reverse =
        '|' :: ' ' :: (b.toList.reverse ++ (c.toList.reverse ++ ' ' ::
          ('|' :: (left ++ " " ++ (if i = eq then "=" else " ") ++ " " ++ tensor ++ " ").toList.reverse))) := by
      simp
    unfold rightName
    rw [hlist]
    simp only [List.head?_cons, if_true, List.drop_succ_cons, List.drop_zero, Option.map_some, Option.some.injEq]
    rw [dropWhile_blanks _ _ (by intro ch hch; exact hb ch (by simpa using hch))]
    obtain ⟨x, xs, hx⟩ := List.exists_cons_of_ne_nil (l := c.toList.reverse) (by simpa using hcn.1)
    have hxn : x ≠ ' ' := (hcn.2 x (by rw [← List.mem_reverse, hx]; simp)).1
    have hdrop : ∀ rest : List Char, (c.toList.reverse ++ rest).dropWhile (· = ' ') = c.toList.reverse ++ rest := by
      intro rest
      rw [hx, List.cons_append, List.dropWhile_cons_of_neg (by simpa using hxn)]
    rw [hdrop, takeWhile_name _ _ (fun ch hch => (hcn.2 ch (by simpa using hch)).1), List.reverse_reverse]

theorem LineOf.no_break {tf : TransFunc} {m eq i : ℕ} {line : String} (h : LineOf tf m eq i line)
    (hp : ∀ c ∈ tf.inChans ++ tf.outChans, PlainName c) : '\n' ∉ line.toList := by
  obtain ⟨left, tensor, right, rfl, -, -, h1, h2, h3, h4, h5⟩ := h.parts
  have hblank : ∀ b, OnlyBlanks b → '\n' ∉ b.toList := fun b hb hmem => absurd (hb _ hmem) (by decide)
  have hcell : ∀ w c s, Cell w c s → '\n' ∉ c.toList → '\n' ∉ s.toList := by
    rintro w c s ⟨-, b, hb, rfl⟩ hc
    simp [hc, hblank b hb]
  have hbar : ∀ w c s, Cell w c s → '\n' ∉ c.toList → '\n' ∉ ("| " ++ s ++ " |").toList := by
    intro w c s hs hc
    simp [hcell w c s hs hc]
  have hname : ∀ c ∈ tf.inChans ++ tf.outChans, '\n' ∉ c.toList := fun c hc hmem => ((hp c hc).2 _ hmem).2 rfl
  have hleft : '\n' ∉ left.toList := by
    cases hc : tf.outChans[i]? with
    | none => exact hblank _ (h2 hc).1
    | some c => obtain ⟨s, hs, rfl⟩ := h1 c hc; exact hbar _ c s hs (hname c (by simp [List.mem_of_getElem? hc]))
  have hright : '\n' ∉ right.toList := by
    cases hc : tf.inChans[i]? with
    | none => rw [h4 hc]; simp
    | some c => obtain ⟨s, hs, rfl⟩ := h3 c hc; exact hbar _ c s hs (hname c (by simp [List.mem_of_getElem? hc]))
  have htensor : '\n' ∉ tensor.toList := by
    cases hc : tf.outChans[i]? with
    | none => exact hblank _ (h2 hc).2
    | some c =>
      obtain ⟨cells, hl, hcs, rfl⟩ := h5 c hc
      have : ∀ s ∈ cells, '\n' ∉ s.toList := by
        intro s hs
        obtain ⟨j, hj, rfl⟩ := List.mem_iff_getElem.mp hs
        have hj' : j < tf.inChans.length := by omega
        refine hcell _ _ _ (hcs j tf.inChans[j] _ (List.getElem?_eq_getElem hj') (List.getElem?_eq_getElem hj)) ?_
        have h6 := hname c (by simp [List.mem_of_getElem? hc])
        have h7 := hname tf.inChans[j] (by simp)
        simp [h6, h7]
      have hj : '\n' ∉ (String.join (cells.map (· ++ " "))).toList := by
        rw [String.toList_join, List.mem_flatMap]
        rintro ⟨x, hx, hmem⟩
        obtain ⟨s, hs, rfl⟩ := List.mem_map.mp hx
        rw [String.toList_append, List.mem_append] at hmem
        rcases hmem with hmem | hmem
        · exact this s hs hmem
        · revert hmem; decide
      simp only [String.toList_append, List.mem_append, not_or]
      exact ⟨⟨by decide, hj⟩, by decide⟩
  split_ifs <;> simp [hleft, hright, htensor]

/-- **C61**. The text identifies the channels: transfer functions with the same text have the same output and input channels in
the same order, whatever their names as long as they have no blanks or line breaks. -/
theorem C61_text_identifies (tf tf' : TransFunc) (ht : Counted tf) (ht' : Counted tf')
    (hne : tf.inChans ++ tf.outChans ≠ []) (hne' : tf'.inChans ++ tf'.outChans ≠ [])
    (hp : ∀ c ∈ tf.inChans ++ tf.outChans, PlainName c) (hp' : ∀ c ∈ tf'.inChans ++ tf'.outChans, PlainName c)
    (h : tf.toText = tf'.toText) : tf.outChans = tf'.outChans ∧ tf.inChans = tf'.inChans := by
  obtain ⟨m, lines, h1, -, -, h2, h3⟩ := C61_text tf ht hne
  obtain ⟨m', lines', h1', -, -, h2', h3'⟩ := C61_text tf' ht' hne'
  have hpos : ∀ (t : TransFunc) (ls : List String), t.inChans ++ t.outChans ≠ [] →
      ls.length = max t.inChans.length t.outChans.length → ls.map String.toList ≠ [] := by
    intro t ls hn hl hnil
    have : ls = [] := by simpa using hnil
    rw [this] at hl
    simp only [List.length_nil] at hl
    refine hn (List.append_eq_nil_iff.mpr ⟨?_, ?_⟩) <;> apply List.eq_nil_of_length_eq_zero <;> omega
  have hlines : lines.map String.toList = lines'.map String.toList := by
    rw [h1, h1', Except.ok.injEq, ← String.toList_inj, String.toList_intercalate, String.toList_intercalate] at h
    have hnl : ("\n" : String).toList = ['\n'] := by decide
    rw [hnl] at h
    have hs := congrArg (List.splitOn '\n') h
    have hb : ∀ l ∈ lines.map String.toList, '\n' ∉ l := by
      intro l hl
      obtain ⟨x, hx, rfl⟩ := List.mem_map.mp hl
      obtain ⟨i, hi⟩ := List.getElem?_of_mem hx
      exact (h3 i x hi).no_break hp
    have hb' : ∀ l ∈ lines'.map String.toList, '\n' ∉ l := by
      intro l hl
      obtain ⟨x, hx, rfl⟩ := List.mem_map.mp hl
      obtain ⟨i, hi⟩ := List.getElem?_of_mem hx
      exact (h3' i x hi).no_break hp'
    rwa [List.splitOn_intercalate '\n' hb (hpos tf lines hne h2), List.splitOn_intercalate '\n' hb' (hpos tf' lines' hne' h2')] at hs
  have hlen : lines.length = lines'.length := by simpa using congrArg List.length hlines
  have hget : ∀ (i : ℕ) line, lines[i]? = some line → ∃ line', lines'[i]? = some line' ∧ line.toList = line'.toList := by
    intro i line hi
    have := congrArg (fun l => l[i]?) hlines
    simp only [List.getElem?_map, hi, Option.map_some] at this
    obtain ⟨l', h5, h6⟩ := Option.map_eq_some_iff.mp this.symm
    exact ⟨l', h5, h6.symm⟩
  constructor
  · apply List.ext_getElem?
    intro i
    by_cases hi : i < lines.length
    · obtain ⟨l', h5, h6⟩ := hget i _ (List.getElem?_eq_getElem hi)
      have h7 := (h3 i _ (List.getElem?_eq_getElem hi)).left hp
      have h8 := (h3' i _ h5).left hp'
      rw [h6, h8] at h7
      exact Option.map_injective (fun a b hab => String.toList_inj.mp hab) h7.symm
    · rw [List.getElem?_eq_none (by omega), List.getElem?_eq_none (by omega)]
  · apply List.ext_getElem?
    intro i
    by_cases hi : i < lines.length
    · obtain ⟨l', h5, h6⟩ := hget i _ (List.getElem?_eq_getElem hi)
      have h7 := (h3 i _ (List.getElem?_eq_getElem hi)).right hp
      have h8 := (h3' i _ h5).right hp'
      rw [h6, h8] at h7
      exact Option.map_injective (fun a b hab => String.toList_inj.mp hab) h7.symm
    · rw [List.getElem?_eq_none (by omega), List.getElem?_eq_none (by omega)]

/-- The text of the built-in impedance tensor and tipper. -/
example : (mkTransFunc tfImpedance {}).bind TransFunc.toText = .ok "| Ex | = | Ex_Hx Ex_Hy | | Hx |\n| Ey |   | Ey_Hx Ey_Hy | | Hy |" ∧
    (mkTransFunc tfTipper {}).bind TransFunc.toText = .ok "| Hz | = | Hz_Hx Hz_Hy | | Hx |\n                         | Hy |" := by
  decide +kernel

/-! ## Plots of the impedance tensor -/

/-- The point `(x, y)` is at the distance `r` from the origin in the direction of `deg` degrees. -/
def InDirection (r deg x y : ℝ) : Prop := x = r * Real.cos (deg * Real.pi / 180) ∧ y = r * Real.sin (deg * Real.pi / 180)

/-- A component has real and imaginary parts for every frequency. -/
def Drawable (freqs : List ℝ) (c : Component) : Prop := c.real.length = freqs.length ∧ c.imag.length = freqs.length

/-- The first line drawn for a component: periods against apparent resistivities `0.2 T |Z|²`, in the upper plot. -/
structure ResistivityLine (freqs : List ℝ) (c : Component) (l : TfLine) : Prop where
  row : l.row = 1
  legend : l.inLegend = true
  points : l.x.length = freqs.length ∧ l.y.length = freqs.length
  values : ∀ (k : ℕ) (f a b : ℝ), freqs[k]? = some f → c.real[k]? = some a → c.imag[k]? = some b →
    ∃ T, T * f = 1 ∧ l.x[k]? = some T ∧ l.y[k]? = some (some (0.2 * T * (a ^ 2 + b ^ 2)))

/-- The second line drawn for a component: periods against phases in degrees, in the lower plot.  The phase is that of the
impedance, but for `ExHx` and `ExHy` that of the impedance with opposite sign. -/
structure PhaseLine (freqs : List ℝ) (key : String) (c : Component) (l : TfLine) : Prop where
  row : l.row = 2
  legend : l.inLegend = false
  points : l.x.length = freqs.length ∧ l.y.length = freqs.length
  values : ∀ (k : ℕ) (f a b : ℝ), freqs[k]? = some f → c.real[k]? = some a → c.imag[k]? = some b →
    ∃ T φ, T * f = 1 ∧ l.x[k]? = some T ∧ l.y[k]? = some (some φ) ∧
      if key = "ExHx" ∨ key = "ExHy" then
        (-180 ≤ φ ∧ φ < 180) ∧ InDirection (Real.sqrt (a ^ 2 + b ^ 2)) φ (-a) (-b)
      else InDirection (Real.sqrt (a ^ 2 + b ^ 2)) φ a b

theorem periodsOf_get (freqs : List ℝ) (hf : ∀ f ∈ freqs, f ≠ 0) (k : ℕ) (f : ℝ) (h : freqs[k]? = some f) :
    ∃ T, T * f = 1 ∧ (periodsOf freqs)[k]? = some T := by
  have := hf f (List.mem_of_getElem? h)
  exact ⟨1 / f, by field_simp, by simp [periodsOf, h]⟩

theorem toNumpy_ok (freqs : List ℝ) (c : Component) (h : Drawable freqs c) :
    ∃ z : List ℂ, c.toNumpy = .ok z ∧ z.length = freqs.length ∧
      ∀ (k : ℕ) (a b : ℝ), c.real[k]? = some a → c.imag[k]? = some b → z[k]? = some ((a : ℂ) + Complex.I * (b : ℂ)) := by
  refine ⟨List.zipWith (fun (re im : ℝ) => (re : ℂ) + Complex.I * (im : ℂ)) c.real c.imag, ?_, ?_, ?_⟩
  · unfold Component.toNumpy
    rw [if_neg (by rw [h.1, h.2]; simp)]
  · rw [List.length_zipWith, h.1, h.2]; simp
  · intro k a b ha hb
    rw [List.getElem?_zipWith, ha, hb]

theorem direction_of_arg (a b φ : ℝ) (m : ℤ)
    (h : φ = ((a : ℂ) + Complex.I * (b : ℂ)).arg * (180 / Real.pi) + m * 360) :
    InDirection (Real.sqrt (a ^ 2 + b ^ 2)) φ a b := by
  have hpi := Real.pi_pos
  set w : ℂ := (a : ℂ) + Complex.I * (b : ℂ) with hw
  have hre : w.re = a := by simp [hw]
  have him : w.im = b := by simp [hw]
  have hnorm : Real.sqrt (a ^ 2 + b ^ 2) = ‖w‖ := by
    rw [Complex.norm_eq_sqrt_sq_add_sq, hre, him]
  have hφ : φ * Real.pi / 180 = w.arg + m * (2 * Real.pi) := by
    rw [h]; field_simp; ring
  unfold InDirection
  rw [hφ, Real.cos_add_int_mul_two_pi, Real.sin_add_int_mul_two_pi, hnorm]
  exact ⟨by rw [Complex.norm_mul_cos_arg, hre], by rw [Complex.norm_mul_sin_arg, him]⟩

theorem direction_opposite (r φ x y : ℝ) (h : InDirection r (φ - 180) x y) : InDirection r φ (-x) (-y) := by
  obtain ⟨h1, h2⟩ := h
  have he : (φ - 180) * Real.pi / 180 = φ * Real.pi / 180 - Real.pi := by ring
  rw [he, Real.cos_sub_pi] at h1
  rw [he, Real.sin_sub_pi] at h2
  exact ⟨by rw [h1]; ring, by rw [h2]; ring⟩

theorem componentLines_ok (freqs : List ℝ) (hf : ∀ f ∈ freqs, f ≠ 0) (comps : List (String × Component)) (legend comp : String)
    (c : Component) (hc : comps.lookup comp = some c) (hk : comp ∈ ["ExHx", "EyHy", "ExHy", "EyHx"]) (hd : Drawable freqs c) :
    ∃ l1 l2, componentLines freqs comps legend comp = .ok [l1, l2] ∧ ResistivityLine freqs c l1 ∧ PhaseLine freqs comp c l2 ∧
      l1.name = legend ++ " - " ++ comp ∧ l2.name = l1.name ∧
      (comp, l1.color) ∈ [("ExHx", "orange"), ("EyHy", "green"), ("ExHy", "red"), ("EyHx", "blue")] ∧ l2.color = l1.color := by
  obtain ⟨z, hz, hzl, hzv⟩ := toNumpy_ok freqs c hd
  obtain ⟨rho, h1, h2, h3⟩ := C37_resistivity (periodsOf freqs) c z hz (by simp [periodsOf, hzl])
  obtain ⟨color, hcol, hcolor⟩ : ∃ color, componentColors.lookup comp = some color ∧
      (comp, color) ∈ [("ExHx", "orange"), ("EyHy", "green"), ("ExHy", "red"), ("EyHx", "blue")] := by
    simp only [List.mem_cons, List.not_mem_nil, or_false] at hk
    rcases hk with rfl | rfl | rfl | rfl <;> exact ⟨_, rfl, by decide⟩
  have hph : ∃ phase, getPhase comp c = .ok phase ∧ phase.length = z.length ∧ ∀ (k : ℕ) (a b : ℝ),
      c.real[k]? = some a → c.imag[k]? = some b → ∃ φ, phase[k]? = some φ ∧
      if comp = "ExHx" ∨ comp = "ExHy" then
        (-180 ≤ φ ∧ φ < 180) ∧ InDirection (Real.sqrt (a ^ 2 + b ^ 2)) φ (-a) (-b)
      else InDirection (Real.sqrt (a ^ 2 + b ^ 2)) φ a b := by
    by_cases hex : comp = "ExHx" ∨ comp = "ExHy"
    · obtain ⟨phase, hp1, hp2, hp3⟩ := C52_phase_ex comp hex c z hz
      refine ⟨phase, hp1, hp2, ?_⟩
      intro k a b ha hb
      have hkz := hzv k a b ha hb
      have hlt : k < phase.length := by
        rw [hp2]; exact (List.getElem?_eq_some_iff.mp hkz).1
      refine ⟨phase[k], List.getElem?_eq_getElem hlt, ?_⟩
      rw [if_pos hex]
      obtain ⟨h4, h5, m, h6⟩ := hp3 k _ _ hkz (List.getElem?_eq_getElem hlt)
      refine ⟨⟨h4, h5⟩, direction_opposite _ _ _ _ (direction_of_arg a b _ m ?_)⟩
      rw [h6]; ring
    · push Not at hex
      obtain ⟨phase, hp1, hp2, hp3, -, -⟩ := C52_phase comp hex c z hz
      refine ⟨phase, hp1, hp2, ?_⟩
      intro k a b ha hb
      have hkz := hzv k a b ha hb
      have hlt : k < phase.length := by
        rw [hp2]; exact (List.getElem?_eq_some_iff.mp hkz).1
      refine ⟨phase[k], List.getElem?_eq_getElem hlt, ?_⟩
      rw [if_neg (by simpa using hex)]
      obtain ⟨m, h6⟩ := hp3 k _ _ hkz (List.getElem?_eq_getElem hlt)
      exact direction_of_arg a b _ m h6
  obtain ⟨phase, hp1, hp2, hp3⟩ := hph
  refine ⟨{ row := 1, name := legend ++ " - " ++ comp, color := color, inLegend := true, x := periodsOf freqs, y := rho.map some },
    { row := 2, name := legend ++ " - " ++ comp, color := color, inLegend := false, x := periodsOf freqs, y := phase.map some },
    by unfold componentLines dictGet; simp only [hc, h1, hp1, hcol, bind, Except.bind, pure, Except.pure], ?_, ?_, rfl, rfl, hcolor, rfl⟩
  · refine ⟨rfl, rfl, ⟨by simp [periodsOf], by simp [h2, hzl]⟩, ?_⟩
    intro k f a b hk ha hb
    obtain ⟨T, hT, hTk⟩ := periodsOf_get freqs hf k f hk
    refine ⟨T, hT, hTk, ?_⟩
    have := h3 k T _ hTk (hzv k a b ha hb)
    simp only [List.getElem?_map, this, Option.map_some]
    simp
  · refine ⟨rfl, rfl, ⟨by simp [periodsOf], by simp [hp2, hzl]⟩, ?_⟩
    intro k f a b hk ha hb
    obtain ⟨T, hT, hTk⟩ := periodsOf_get freqs hf k f hk
    obtain ⟨φ, h4, h5⟩ := hp3 k a b ha hb
    exact ⟨T, φ, hT, hTk, by simp [h4], h5⟩

/-- The four components of the impedance tensor that can be drawn. -/
def impedanceKeys : List String := ["ExHx", "EyHy", "ExHy", "EyHx"]

/-- The pair of lines drawn for a component. -/
structure LinesOf (freqs : List ℝ) (comps : List (String × Component)) (legend comp : String) (p : TfLine × TfLine) : Prop where
  component : ∃ c, comps.lookup comp = some c ∧ ResistivityLine freqs c p.1 ∧ PhaseLine freqs comp c p.2
  name : p.1.name = legend ++ " - " ++ comp ∧ p.2.name = p.1.name
  color : (comp, p.1.color) ∈ [("ExHx", "orange"), ("EyHy", "green"), ("ExHy", "red"), ("EyHx", "blue")] ∧ p.2.color = p.1.color

theorem plotComponents_prefix (freqs : List ℝ) (hf : ∀ f ∈ freqs, f ≠ 0) (comps : List (String × Component)) (legend : String)
    (pre : List String) (hpre : ∀ comp ∈ pre, comp ∈ impedanceKeys ∧ ∃ c, comps.lookup comp = some c ∧ Drawable freqs c)
    (rest : List String) (fig : List TfLine) :
    ∃ pairs : List (TfLine × TfLine), List.Forall₂ (LinesOf freqs comps legend) pre pairs ∧
      plotComponents freqs comps legend (pre ++ rest) fig =
        plotComponents freqs comps legend rest (fig ++ pairs.flatMap fun p => [p.1, p.2]) := by
  induction pre generalizing fig with
  | nil => exact ⟨[], .nil, by simp⟩
  | cons comp pre ih =>
    obtain ⟨hk, c, hc, hd⟩ := hpre comp (by simp)
    obtain ⟨l1, l2, h1, h2, h3, h4, h5, hcol, h6⟩ := componentLines_ok freqs hf comps legend comp c hc hk hd
    obtain ⟨pairs, h7, h8⟩ := ih (fun x hx => hpre x (by simp [hx])) (fig ++ [l1, l2])
    refine ⟨(l1, l2) :: pairs, .cons ⟨⟨c, hc, h2, h3⟩, ⟨h4, h5⟩, hcol, h6⟩ h7, ?_⟩
    rw [List.cons_append, plotComponents, h1]
    simp only
    rw [h8]
    simp

/-- **C61**. Plotting components of the impedance tensor adds two lines for each component, in the order asked for, after the
lines that the figure already has: the apparent resistivities in the upper and the phases in the lower plot, against the
periods. -/
theorem C61_impedance_plot (freqs : List ℝ) (hf : ∀ f ∈ freqs, f ≠ 0) (comps : List (String × Component))
    (fig : Option (List TfLine)) (toPlot : List String) (legend : String)
    (hp : ∀ comp ∈ toPlot, comp ∈ ["ExHx", "EyHy", "ExHy", "EyHx"] ∧ ∃ c, comps.lookup comp = some c ∧ Drawable freqs c) :
    ∃ pairs : List (TfLine × TfLine), List.Forall₂ (LinesOf freqs comps legend) toPlot pairs ∧
      plotImpedance freqs comps fig (some toPlot) legend = (.ok (), fig.getD [] ++ pairs.flatMap fun p => [p.1, p.2]) := by
  obtain ⟨pairs, h1, h2⟩ := plotComponents_prefix freqs hf comps legend toPlot hp [] (fig.getD [])
  refine ⟨pairs, h1, ?_⟩
  unfold plotImpedance
  rw [List.append_nil] at h2
  rw [Option.getD_some, h2, plotComponents]

/-- **C61**. Without a choice all four components are drawn. -/
theorem C61_all_components (freqs : List ℝ) (comps : List (String × Component)) (fig : Option (List TfLine)) (legend : String) :
    plotImpedance freqs comps fig none legend =
      plotImpedance freqs comps fig (some ["ExHy", "EyHx", "ExHx", "EyHy"]) legend := rfl

/-- **C61**. A component that was not calculated, or is not one of the impedance tensor, is refused with a `KeyError`, one with
another number of values than frequencies with a `ValueError`; the figure then has the complete lines of the components
before it and nothing else. -/
theorem C61_impedance_refused (freqs : List ℝ) (hf : ∀ f ∈ freqs, f ≠ 0) (comps : List (String × Component))
    (fig : List TfLine) (pre : List String) (comp : String) (rest : List String) (legend : String) (e : Err)
    (hpre : ∀ comp ∈ pre, comp ∈ ["ExHx", "EyHy", "ExHy", "EyHx"] ∧ ∃ c, comps.lookup comp = some c ∧ Drawable freqs c)
    (hbad : (comps.lookup comp = none ∧ e = .key) ∨
      (∃ c, comps.lookup comp = some c ∧ Drawable freqs c ∧ comp ∉ ["ExHx", "EyHy", "ExHy", "EyHx"] ∧ e = .key) ∨
      (∃ c, comps.lookup comp = some c ∧ ¬ Drawable freqs c ∧ e = .value)) :
    ∃ pairs : List (TfLine × TfLine), List.Forall₂ (LinesOf freqs comps legend) pre pairs ∧
      plotImpedance freqs comps (some fig) (some (pre ++ comp :: rest)) legend =
        (.error e, fig ++ pairs.flatMap fun p => [p.1, p.2]) := by
  obtain ⟨pairs, h1, h2⟩ := plotComponents_prefix freqs hf comps legend pre hpre (comp :: rest) fig
  refine ⟨pairs, h1, ?_⟩
  unfold plotImpedance
  rw [Option.getD_some, Option.getD_some, h2, plotComponents]
  have herr : componentLines freqs comps legend comp = .error e := by
    rcases hbad with ⟨hn, rfl⟩ | ⟨c, hc, hd, hk, rfl⟩ | ⟨c, hc, hd, rfl⟩
    · unfold componentLines dictGet
      simp only [hn, bind, Except.bind]
    · obtain ⟨z, hz, hzl, -⟩ := toNumpy_ok freqs c hd
      obtain ⟨rho, h3, -⟩ := C37_resistivity (periodsOf freqs) c z hz (by simp [periodsOf, hzl])
      have h4 : ∃ ph, getPhase comp c = .ok ph := by
        by_cases hex : comp = "ExHx" ∨ comp = "ExHy"
        · obtain ⟨ph, h, -⟩ := C52_phase_ex comp hex c z hz
          exact ⟨ph, h⟩
        · push Not at hex
          obtain ⟨ph, h, -⟩ := C52_phase comp hex c z hz
          exact ⟨ph, h⟩
      obtain ⟨ph, h4⟩ := h4
      have hcol : componentColors.lookup comp = none := by
        simp only [List.mem_cons, List.not_mem_nil, or_false, not_or] at hk
        obtain ⟨a1, a2, a3, a4⟩ := hk
        unfold componentColors
        rw [List.lookup_eq_none_iff]
        intro p hp
        simp only [List.mem_cons, List.not_mem_nil, or_false] at hp
        rcases hp with rfl | rfl | rfl | rfl <;> simpa using by assumption
      unfold componentLines dictGet
      simp only [hc, h3, h4, hcol, bind, Except.bind]
    · have h5 : getResistivity (periodsOf freqs) c = .error .value := by
        unfold getResistivity Component.toNumpy
        by_cases hl : c.real.length = c.imag.length
        · have h6 : c.real.length ≠ freqs.length := by
            intro h; exact hd ⟨h, by omega⟩
          rw [if_neg (by simpa using hl)]
          simp only [bind, Except.bind]
          rw [if_pos (by simp [periodsOf, ← hl]; omega)]
          rfl
        · rw [if_pos (by simpa using hl)]
          rfl
      unfold componentLines dictGet
      simp only [hc, h5, bind, Except.bind]
  rw [herr]

/-- A tensor at two frequencies whose components can be drawn. -/
noncomputable def demoTensor : List (String × Component) :=
  [("ExHx", ⟨[0, 1], [1, 1]⟩), ("ExHy", ⟨[1, 2], [1, 3]⟩), ("EyHx", ⟨[-1, -2], [-1, -3]⟩), ("EyHy", ⟨[0, 0], [0, 1]⟩)]

example : ∃ pairs : List (TfLine × TfLine), List.Forall₂ (LinesOf [10, 5] demoTensor "site") ["ExHy", "EyHx"] pairs ∧
    plotImpedance [10, 5] demoTensor none (some ["ExHy", "EyHx"]) "site" = (.ok (), [] ++ pairs.flatMap fun p => [p.1, p.2]) :=
  C61_impedance_plot [10, 5] (by norm_num) demoTensor none ["ExHy", "EyHx"] "site" (by
    intro comp hc
    simp only [List.mem_cons, List.not_mem_nil, or_false] at hc
    rcases hc with rfl | rfl
    · exact ⟨by decide, ⟨[1, 2], [1, 3]⟩, rfl, rfl, rfl⟩
    · exact ⟨by decide, ⟨[-1, -2], [-1, -3]⟩, rfl, rfl, rfl⟩)

example : ∃ pairs : List (TfLine × TfLine), List.Forall₂ (LinesOf [10, 5] demoTensor "site") ["ExHy"] pairs ∧
    plotImpedance [10, 5] demoTensor (some []) (some (["ExHy"] ++ "HzHx" :: ["EyHx"])) "site" =
      (.error .key, [] ++ pairs.flatMap fun p => [p.1, p.2]) :=
  C61_impedance_refused [10, 5] (by norm_num) demoTensor [] ["ExHy"] "HzHx" ["EyHx"] "site" .key (by
    intro comp hc
    simp only [List.mem_cons, List.not_mem_nil, or_false] at hc
    subst hc
    exact ⟨by decide, ⟨[1, 2], [1, 3]⟩, rfl, rfl, rfl⟩) (Or.inl ⟨rfl, rfl⟩)

/-! ## Tippers -/

/-- **C61**. The angle shown for a tipper with components `x` and `y`: between -90 and 90 degrees; the direction of the tipper if
`x ≥ 0` and the opposite direction if `x < 0`.  It is not a number exactly when both components are zero. -/
theorem C61_tipper_angle (x y : ℝ) :
    (arctanDegrees x y = none ↔ x = 0 ∧ y = 0) ∧
    ∀ deg, arctanDegrees x y = some deg → (-90 ≤ deg ∧ deg ≤ 90) ∧
      (0 ≤ x → InDirection (Real.sqrt (x ^ 2 + y ^ 2)) deg x y) ∧
      (x < 0 → InDirection (Real.sqrt (x ^ 2 + y ^ 2)) deg (-x) (-y)) := by
  have hpi := Real.pi_pos
  unfold arctanDegrees
  by_cases hx : x = 0
  · subst hx
    rw [if_pos rfl]
    by_cases hy : y = 0
    · subst hy; simp
    · rw [if_neg hy]
      by_cases hpos : 0 < y
      · rw [if_pos hpos]
        refine ⟨by simp [hy], ?_⟩
        intro deg hdeg
        rw [Option.some.injEq] at hdeg
        subst hdeg
        refine ⟨by norm_num, fun _ => ?_, fun h => absurd h (lt_irrefl _)⟩
        have he : (90 : ℝ) * Real.pi / 180 = Real.pi / 2 := by ring
        unfold InDirection
        rw [he, Real.cos_pi_div_two, Real.sin_pi_div_two]
        refine ⟨by simp, ?_⟩
        rw [show (0 : ℝ) ^ 2 + y ^ 2 = y ^ 2 by ring, Real.sqrt_sq hpos.le]; ring
      · rw [if_neg hpos]
        refine ⟨by simp [hy], ?_⟩
        intro deg hdeg
        rw [Option.some.injEq] at hdeg
        subst hdeg
        refine ⟨by norm_num, fun _ => ?_, fun h => absurd h (lt_irrefl _)⟩
        have he : (-90 : ℝ) * Real.pi / 180 = -(Real.pi / 2) := by ring
        unfold InDirection
        rw [he, Real.cos_neg, Real.sin_neg, Real.cos_pi_div_two, Real.sin_pi_div_two]
        refine ⟨by simp, ?_⟩
        rw [show (0 : ℝ) ^ 2 + y ^ 2 = (-y) ^ 2 by ring, Real.sqrt_sq (by linarith)]; ring
  · rw [if_neg hx]
    refine ⟨by simp [hx], ?_⟩
    intro deg hdeg
    rw [Option.some.injEq] at hdeg
    have hrad : deg * Real.pi / 180 = Real.arctan (y / x) := by rw [← hdeg]; field_simp
    have hlo := Real.neg_pi_div_two_lt_arctan (y / x)
    have hhi := Real.arctan_lt_pi_div_two (y / x)
    have hsq : Real.sqrt (x ^ 2 + y ^ 2) = |x| * Real.sqrt (1 + (y / x) ^ 2) := by
      rw [show x ^ 2 + y ^ 2 = x ^ 2 * (1 + (y / x) ^ 2) by field_simp, Real.sqrt_mul (sq_nonneg x), Real.sqrt_sq_eq_abs]
    have hspos : 0 < Real.sqrt (1 + (y / x) ^ 2) := Real.sqrt_pos.mpr (by positivity)
    refine ⟨⟨?_, ?_⟩, ?_, ?_⟩
    · have : -(Real.pi / 2) * 180 / Real.pi = -90 := by field_simp; norm_num
      rw [← hdeg, ← this]; gcongr
    · have : Real.pi / 2 * 180 / Real.pi = 90 := by field_simp; norm_num
      rw [← hdeg, ← this]; gcongr
    · intro h
      have hxp : 0 < x := lt_of_le_of_ne h (Ne.symm hx)
      unfold InDirection
      rw [hrad, Real.cos_arctan, Real.sin_arctan, hsq, abs_of_pos hxp]
      constructor <;> field_simp
    · intro h
      unfold InDirection
      rw [hrad, Real.cos_arctan, Real.sin_arctan, hsq, abs_of_neg h]
      constructor <;> field_simp

/-- **C61**. Opposite tippers show the same angle. -/
theorem C61_tipper_angle_ambiguous (x y : ℝ) (hx : x ≠ 0) : arctanDegrees (-x) (-y) = arctanDegrees x y := by
  unfold arctanDegrees
  rw [if_neg hx, if_neg (by simpa using hx), neg_div_neg_eq]

/-- **C61**. The plot of a tipper has three lines against the periods: its length, that of the real parts, in the upper plot, and
the angles of the real and of the imaginary parts in the lower plot. -/
theorem C61_tipper_plot (freqs : List ℝ) (hf : ∀ f ∈ freqs, f ≠ 0) (comps : List (String × Component)) (tx ty : Component)
    (hx : comps.lookup "HzHx" = some tx) (hy : comps.lookup "HzHy" = some ty) (dx : Drawable freqs tx) (dy : Drawable freqs ty) :
    ∃ len re im, plotTipper freqs comps = .ok [len, re, im] ∧ len.row = 1 ∧ re.row = 2 ∧ im.row = 2 ∧
      len.name = "Tipper length" ∧ re.name = "Real angle" ∧ im.name = "Imag angle" ∧
      ∀ (k : ℕ) (f a b a' b' : ℝ), freqs[k]? = some f → tx.real[k]? = some a → ty.real[k]? = some b →
        tx.imag[k]? = some a' → ty.imag[k]? = some b' →
        ∃ T, T * f = 1 ∧ len.x[k]? = some T ∧ re.x[k]? = some T ∧ im.x[k]? = some T ∧
          len.y[k]? = some (some (Real.sqrt (a ^ 2 + b ^ 2))) ∧ re.y[k]? = some (arctanDegrees a b) ∧
          im.y[k]? = some (arctanDegrees a' b') := by
  have h1 : tipperLength comps = .ok (List.zipWith (fun x y => Real.sqrt (x ^ 2 + y ^ 2)) tx.real ty.real) := by
    unfold tipperLength dictGet
    simp only [hx, hy, bind, Except.bind]
    rw [if_neg (by rw [dx.1, dy.1]; simp)]
    rfl
  have h2 : tipperRealAngle comps = .ok (List.zipWith arctanDegrees tx.real ty.real) := by
    unfold tipperRealAngle dictGet anglesOf
    simp only [hx, hy, bind, Except.bind]
    rw [if_neg (by rw [dx.1, dy.1]; simp)]
  have h3 : tipperImagAngle comps = .ok (List.zipWith arctanDegrees tx.imag ty.imag) := by
    unfold tipperImagAngle dictGet anglesOf
    simp only [hx, hy, bind, Except.bind]
    rw [if_neg (by rw [dx.2, dy.2]; simp)]
  refine ⟨_, _, _, by unfold plotTipper; simp only [h1, h2, h3, bind, Except.bind, pure, Except.pure]; rfl, rfl, rfl, rfl, rfl, rfl, rfl, ?_⟩
  intro k f a b a' b' hk ha hb ha' hb'
  obtain ⟨T, hT, hTk⟩ := periodsOf_get freqs hf k f hk
  refine ⟨T, hT, hTk, hTk, hTk, ?_, ?_, ?_⟩
  · simp [List.getElem?_zipWith, ha, hb]
  · simp [List.getElem?_zipWith, ha, hb]
  · simp [List.getElem?_zipWith, ha', hb']

/-- **C61**. A tipper without one of its components cannot be plotted. -/
theorem C61_tipper_missing (freqs : List ℝ) (comps : List (String × Component))
    (h : comps.lookup "HzHx" = none ∨ comps.lookup "HzHy" = none) : plotTipper freqs comps = .error .key := by
  unfold plotTipper tipperLength dictGet
  rcases h with h | h
  · simp only [h, bind, Except.bind]
  · cases hx : comps.lookup "HzHx" with
    | none => simp only [bind, Except.bind]
    | some c => simp only [h, bind, Except.bind]

example : ∃ len re im, plotTipper [10] [("HzHx", ⟨[-1], [1]⟩), ("HzHy", ⟨[1], [0]⟩)] = .ok [len, re, im] :=
  (C61_tipper_plot [10] (by norm_num) [("HzHx", ⟨[-1], [1]⟩), ("HzHy", ⟨[1], [0]⟩)] ⟨[-1], [1]⟩ ⟨[1], [0]⟩ rfl rfl ⟨rfl, rfl⟩
    ⟨rfl, rfl⟩).imp fun _ h => h.imp fun _ h => h.imp fun _ h => h.1

end Resistics
