import Verif.Model.FloatText
import Verif.Model.Gather

/-!
# Model of the JSON text that is written and read

`self.json()` (/repo/resistics/common.py:441-452) is pydantic's `json.dumps` of the dictionary of fields, with the default settings of
Python's `json`: everything that is not printable ASCII is escaped.  `parse_file` (/repo/resistics/time.py:986, decimate.py:869,
window.py:1599, spectra.py:828, calibrate.py:278, letsgo.py:127, 850) is `json.loads` of the whole file followed by the validation of
`Verif.Model.MetaText`.
-/

namespace Resistics

/-- The values of JSON, as Python holds them. -/
inductive Json where
  | null
  | bool (b : Bool)
  | num (n : PyNum)
  | str (s : String)
  | list (l : List Json)
  | dict (d : List (String × Json))

/-! ## Writing -/

/-- The hexadecimal digit, in small letters. -/
def hexDigit (n : ℕ) : Char := if n < 10 then Char.ofNat ('0'.toNat + n) else Char.ofNat ('a'.toNat + (n - 10))

/-- `\uXXXX`. -/
def unicodeEscape (n : ℕ) : List Char :=
  ['\\', 'u', hexDigit (n / 4096 % 16), hexDigit (n / 256 % 16), hexDigit (n / 16 % 16), hexDigit (n % 16)]

/-- `json.encoder.py_encode_basestring_ascii`, one character: characters beyond the first 65536 are written as two surrogates. -/
def escapeChar (c : Char) : List Char :=
  if c = '"' then ['\\', '"']
  else if c = '\\' then ['\\', '\\']
  else if c = '\n' then ['\\', 'n']
  else if c = '\r' then ['\\', 'r']
  else if c = '\t' then ['\\', 't']
  else if c.toNat = 12 then ['\\', 'f']
  else if c.toNat = 8 then ['\\', 'b']
  else if 32 ≤ c.toNat ∧ c.toNat ≤ 126 then [c]
  else if c.toNat < 65536 then unicodeEscape c.toNat
  else unicodeEscape (55296 + (c.toNat - 65536) / 1024) ++ unicodeEscape (56320 + (c.toNat - 65536) % 1024)

/-- A text in quotes. -/
def stringText (s : String) : List Char := '"' :: (s.toList.flatMap escapeChar ++ ['"'])

/-- A number. -/
def PyNum.text : PyNum → List Char
  | .int n => intText n
  | .float q => floatText q
  | .inf false => "Infinity".toList
  | .inf true => "-Infinity".toList
  | .nan => "NaN".toList

mutual

/-- `json.dumps`. -/
def Json.text : Json → List Char
  | .null => "null".toList
  | .bool true => "true".toList
  | .bool false => "false".toList
  | .num n => n.text
  | .str s => stringText s
  | .list [] => ['[', ']']
  | .list (v :: l) => '[' :: (v.text ++ moreItemsText l)
  | .dict [] => ['{', '}']
  | .dict ((k, v) :: d) => '{' :: (stringText k ++ ':' :: ' ' :: (v.text ++ morePairsText d))

/-- The items of a list after the first one, and its end. -/
def moreItemsText : List Json → List Char
  | [] => [']']
  | v :: l => ',' :: ' ' :: (v.text ++ moreItemsText l)

/-- The entries of a dictionary after the first one, and its end. -/
def morePairsText : List (String × Json) → List Char
  | [] => ['}']
  | (k, v) :: d => ',' :: ' ' :: (stringText k ++ ':' :: ' ' :: (v.text ++ morePairsText d))

end

/-! ## Reading -/

/-- White space of JSON. -/
def isJsonSpace (c : Char) : Bool := c == ' ' || c == '\t' || c == '\n' || c == '\r'

/-- The text after white space. -/
def skipSpace (cs : List Char) : List Char := cs.dropWhile isJsonSpace

/-- The value of a hexadecimal digit, in small or capital letters. -/
def hexValue (c : Char) : Option ℕ :=
  if '0' ≤ c ∧ c ≤ '9' then some (c.toNat - '0'.toNat)
  else if 'a' ≤ c ∧ c ≤ 'f' then some (c.toNat - 'a'.toNat + 10)
  else if 'A' ≤ c ∧ c ≤ 'F' then some (c.toNat - 'A'.toNat + 10)
  else none

/-- Four hexadecimal digits. -/
def readHex4 : List Char → Option (ℕ × List Char)
  | a :: b :: c :: d :: cs => do
      let a ← hexValue a
      let b ← hexValue b
      let c ← hexValue c
      let d ← hexValue d
      return (4096 * a + 256 * b + 16 * c + d, cs)
  | _ => none

/-- The second half of a pair of surrogates. -/
def readLowSurrogate (high : ℕ) : List Char → Option (Char × List Char)
  | '\\' :: 'u' :: cs => do
      let p ← readHex4 cs
      guard (56320 ≤ p.1 ∧ p.1 ≤ 57343)
      return (Char.ofNat (65536 + (high - 55296) * 1024 + (p.1 - 56320)), p.2)
  | _ => none

/-- What follows `\u`.  Simplification: surrogates without their other half, which are no characters, are refused (Python keeps them;
nothing that is written has them). -/
def readUnicode (cs : List Char) : Option (Char × List Char) := do
  let p ← readHex4 cs
  if 55296 ≤ p.1 ∧ p.1 ≤ 56319 then readLowSurrogate p.1 p.2
  else if 56320 ≤ p.1 ∧ p.1 ≤ 57343 then none
  else some (Char.ofNat p.1, p.2)

/-- What follows a backslash. -/
def readEscape : List Char → Option (Char × List Char)
  | [] => none
  | c :: cs =>
    if c = 'u' then readUnicode cs
    else if c = '"' ∨ c = '\\' ∨ c = '/' then some (c, cs)
    else if c = 'b' then some (Char.ofNat 8, cs)
    else if c = 'f' then some (Char.ofNat 12, cs)
    else if c = 'n' then some ('\n', cs)
    else if c = 'r' then some ('\r', cs)
    else if c = 't' then some ('\t', cs)
    else none

/-- `json.decoder.scanstring` after the opening quote; control characters are refused.  The first argument bounds the steps. -/
def scanString : ℕ → List Char → Option (List Char × List Char)
  | 0, _ => none
  | _ + 1, [] => none
  | n + 1, c :: cs =>
    if c = '"' then some ([], cs)
    else if c = '\\' then do
      let p ← readEscape cs
      let q ← scanString n p.2
      return (p.1 :: q.1, q.2)
    else if c.toNat < 32 then none
    else do
      let q ← scanString n cs
      return (c :: q.1, q.2)

/-- A text after its opening quote. -/
def readStringBody (cs : List Char) : Option (String × List Char) :=
  (scanString (cs.length + 1) cs).map fun q => (String.ofList q.1, q.2)

/-- The characters numbers are made of. -/
def isNumberChar (c : Char) : Bool := isDecDigit c || c == '-' || c == '+' || c == '.' || c == 'e' || c == 'E'

/-- A number: all characters that can belong to one are taken; Python takes as many as make a number, and then stumbles over the others. -/
def parseNumber (cs : List Char) : Option (Json × List Char) :=
  (readNumberText (cs.takeWhile isNumberChar)).map fun n => (.num n, cs.dropWhile isNumberChar)

/-- The rest of a word. -/
def parseWord (word : List Char) (v : Json) (cs : List Char) : Option (Json × List Char) :=
  if word.isPrefixOf cs then some (v, cs.drop word.length) else none

/-- Values that are no text, list or dictionary (`json.scanner.py_make_scanner`). -/
def parseScalar : List Char → Option (Json × List Char)
  | 'n' :: cs => parseWord "ull".toList .null cs
  | 't' :: cs => parseWord "rue".toList (.bool true) cs
  | 'f' :: cs => parseWord "alse".toList (.bool false) cs
  | 'N' :: cs => parseWord "aN".toList (.num .nan) cs
  | 'I' :: cs => parseWord "nfinity".toList (.num (.inf false)) cs
  | '-' :: 'I' :: cs => parseWord "nfinity".toList (.num (.inf true)) cs
  | cs => parseNumber cs

/-- `json.decoder.JSONArray` after an item. -/
def parseMoreItems (value : List Char → Option (Json × List Char)) : ℕ → List Char → Option (List Json × List Char)
  | 0, _ => none
  | n + 1, cs =>
    match skipSpace cs with
    | ']' :: rest => some ([], rest)
    | ',' :: rest => do
        let p ← value (skipSpace rest)
        let q ← parseMoreItems value n p.2
        return (p.1 :: q.1, q.2)
    | _ => none

/-- `json.decoder.JSONArray` after the opening bracket. -/
def parseItems (value : List Char → Option (Json × List Char)) (n : ℕ) (cs : List Char) : Option (List Json × List Char) :=
  match skipSpace cs with
  | ']' :: rest => some ([], rest)
  | cs => do
      let p ← value cs
      let q ← parseMoreItems value n p.2
      return (p.1 :: q.1, q.2)

/-- The value after a key. -/
def parseAfterKey (value : List Char → Option (Json × List Char)) (cs : List Char) : Option (Json × List Char) :=
  match skipSpace cs with
  | ':' :: rest => value (skipSpace rest)
  | _ => none

/-- A key and its value. -/
def parsePair (value : List Char → Option (Json × List Char)) : List Char → Option ((String × Json) × List Char)
  | '"' :: cs => do
      let k ← readStringBody cs
      let v ← parseAfterKey value k.2
      return ((k.1, v.1), v.2)
  | _ => none

/-- `json.decoder.JSONObject` after an entry. -/
def parseMorePairs (value : List Char → Option (Json × List Char)) :
    ℕ → List Char → Option (List (String × Json) × List Char)
  | 0, _ => none
  | n + 1, cs =>
    match skipSpace cs with
    | '}' :: rest => some ([], rest)
    | ',' :: rest => do
        let p ← parsePair value (skipSpace rest)
        let q ← parseMorePairs value n p.2
        return (p.1 :: q.1, q.2)
    | _ => none

/-- `json.decoder.JSONObject` after the opening brace. -/
def parsePairs (value : List Char → Option (Json × List Char)) (n : ℕ) (cs : List Char) :
    Option (List (String × Json) × List Char) :=
  match skipSpace cs with
  | '}' :: rest => some ([], rest)
  | cs => do
      let p ← parsePair value cs
      let q ← parseMorePairs value n p.2
      return (p.1 :: q.1, q.2)

/-- A dictionary made of entries: of two with the same key the later one counts. -/
def asDict (d : List (String × Json)) : List (String × Json) := d.foldl (fun a q => dictSet a q.1 q.2) []

/-- A value at the start of a text, and the rest.  The first argument bounds the depth and the number of items. -/
def parseValue : ℕ → List Char → Option (Json × List Char)
  | 0, _ => none
  | n + 1, cs =>
    match cs with
    | '"' :: cs => (readStringBody cs).map fun p => (.str p.1, p.2)
    | '[' :: cs => (parseItems (parseValue n) n cs).map fun p => (.list p.1, p.2)
    | '{' :: cs => (parsePairs (parseValue n) n cs).map fun p => (.dict (asDict p.1), p.2)
    | cs => parseScalar cs

/-- The value must be the whole text. -/
def wholeText : Option (Json × List Char) → Except Err Json
  | some (v, rest) => if skipSpace rest = [] then .ok v else .error .value
  | none => .error .value

/-- `json.loads`: what is not JSON is a `ValueError` (`JSONDecodeError`). -/
def loads (text : List Char) : Except Err Json := wholeText (parseValue (text.length + 1) (skipSpace text))

end Resistics
