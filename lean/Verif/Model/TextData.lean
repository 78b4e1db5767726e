import Verif.Model.FloatText
import Verif.Model.Time
import Verif.Model.Files
import Verif.Model.Calibrate
import Verif.Model.Project

/-!
# Model of recordings as text: /repo/resistics/time.py:997-1059 `TimeReaderAscii`, 1149-1182 `TimeWriterAscii`

Character by character.  `np.savetxt` and `np.loadtxt` are those of numpy 1.21.2 (/repo/poetry.lock).  Values are `PyNum`s: finite
numbers, infinities and `nan`.  Simplifications: there is no negative zero; white space and letter case are those of ASCII; hexadecimal
numbers and underscores between digits are refused; a delimiter is one character.
-/

namespace Resistics

/-! ## Writing -/

/-- `"%.6f" % x` for a finite number: its exact value rounded to a millionth, ties to even, with the sign of `x` even when that is zero. -/
def fixedText (x : ℚ) : List Char :=
  (if x < 0 then ['-'] else []) ++ (Nat.toDigits 10 ((pyRound (|x| * 1000000)).toNat / 1000000) ++
    '.' :: (sixDigits (pyRound (|x| * 1000000)).toNat).toList)

/-- `"%.6f" % v`: whole numbers are made floating point numbers first. -/
def sampleText : PyNum → List Char
  | .int n => fixedText (nearestDouble n)
  | .float q => fixedText q
  | .inf neg => if neg then "-inf".toList else "inf".toList
  | .nan => "nan".toList

/-- `np.savetxt(path, values, fmt="%.6f", newline="\n")` (/repo/resistics/time.py:1179): a line for each value. -/
def saveText (vs : List PyNum) : List Char := vs.flatMap fun v => sampleText v ++ ['\n']

/-! ## Reading -/

/-- The lines of a file opened as text, with universal newlines; `cur` is the current line, reversed.  What follows the last newline is a
line if there is something. -/
def linesFrom (cur : List Char) : List Char → List (List Char)
  | [] => if cur = [] then [] else [cur.reverse]
  | '\r' :: '\n' :: cs => cur.reverse :: linesFrom [] cs
  | '\r' :: cs => cur.reverse :: linesFrom [] cs
  | '\n' :: cs => cur.reverse :: linesFrom [] cs
  | c :: cs => linesFrom (c :: cur) cs

/-- The lines of a text. -/
def textLines (cs : List Char) : List (List Char) := linesFrom [] cs

/-- `line.split(delimiter)` for one character. -/
def splitAtChar (d : Char) (cur : List Char) : List Char → List (List Char)
  | [] => [cur.reverse]
  | c :: cs => if c = d then cur.reverse :: splitAtChar d [] cs else splitAtChar d (c :: cur) cs

/-- The `split_line` of `np.loadtxt` on what is before a comment: an empty line has no words. -/
def splitBare (delimiter : Option Char) (line : List Char) : List (List Char) :=
  match delimiter with
  | none => (splitWords [] line).map String.toList
  | some d => if line = [] then [] else splitAtChar d [] line

/-- The `split_line` of `np.loadtxt` (called at /repo/resistics/time.py:1046-1052): comments start with `#`. -/
def splitLine (delimiter : Option Char) (line : List Char) : List (List Char) :=
  splitBare delimiter (line.takeWhile fun c => c ≠ '#')

/-- White space at both ends removed, as `float` does. -/
def stripSpace (cs : List Char) : List Char := ((cs.dropWhile isSpace).reverse.dropWhile isSpace).reverse

/-- The digits after a decimal point, for `float`: there may be none. -/
def readPoint : List Char → List Char × List Char
  | '.' :: cs => spanDigits cs
  | cs => ([], cs)

/-- A decimal number for `float`, after its sign: digits before or after the point, and perhaps an exponent. -/
def readDecimal (neg : Bool) (cs : List Char) : Option PyNum := do
  let (whole, cs) := spanDigits cs
  let (frac, cs) := readPoint cs
  guard (whole ++ frac ≠ [])
  let (e, cs) ← readExponent cs
  guard (cs = [])
  return toDouble ((if neg then -1 else 1) * decimalValue whole frac (e.getD 0))

/-- `float(word)` after white space and sign. -/
def readUnsigned (neg : Bool) (cs : List Char) : Option PyNum :=
  if cs.map Char.toLower = "inf".toList ∨ cs.map Char.toLower = "infinity".toList then some (.inf neg)
  else if cs.map Char.toLower = "nan".toList then some .nan
  else readDecimal neg cs

/-- `float(word)`; `none` is a `ValueError`. -/
def readWord (cs : List Char) : Option PyNum :=
  readUnsigned (readSign (stripSpace cs)).1 (readSign (stripSpace cs)).2

/-- The exponent of the last bit of a single near `x`: 24 significant bits, and nothing smaller than `2 ^ -149`. -/
def lastBitSingle (x : ℚ) : ℤ := max (Int.log 2 |x| - 23) (-149)

/-- The single precision number nearest to `x`, ties to even, without a largest one. -/
def nearestSingle (x : ℚ) : ℚ :=
  if x = 0 then 0 else (pyRound (x / (2 : ℚ) ^ lastBitSingle x) : ℚ) * (2 : ℚ) ^ lastBitSingle x

/-- The largest single precision number. -/
def maxSingle : ℚ := (2 ^ 24 - 1) * 2 ^ 104

/-- What becomes of a number in an array of `np.float32` (/repo/resistics/time.py:1037): the nearest single, or infinity. -/
def toSingle : PyNum → PyNum
  | .int n => if |nearestSingle n| ≤ maxSingle then .float (nearestSingle n) else .inf (decide (n < 0))
  | .float q => if |nearestSingle q| ≤ maxSingle then .float (nearestSingle q) else .inf (decide (q < 0))
  | .inf neg => .inf neg
  | .nan => .nan

/-- A word of a line, as a single precision number. -/
def readSample (word : List Char) : Except Err PyNum := (readWord word).elim (.error .value) fun v => .ok (toSingle v)

/-- The values of a line. -/
def readRow (delimiter : Option Char) (line : List Char) : Except Err (List PyNum) := (splitLine delimiter line).mapM readSample

/-- Is there nothing on the line, or only a comment? -/
def bareLine (delimiter : Option Char) (line : List Char) : Bool := (splitLine delimiter line).isEmpty

/-- The lines `np.loadtxt` takes its rows from: the first `skip` lines are skipped whatever is on them, then lines without values; of
the lines from there at most `maxRows` are looked at, and those without values left out. -/
def linesRead (delimiter : Option Char) (lines : List (List Char)) (skip maxRows : ℕ) : List (List Char) :=
  (((lines.drop skip).dropWhile (bareLine delimiter)).take maxRows).filter fun l => !bareLine delimiter l

/-- `np.loadtxt(path, dtype=np.float32, delimiter, skiprows, max_rows).transpose()` (/repo/resistics/time.py:1046-1053).  When there are
fewer lines than are to be skipped the `StopIteration` is not caught. -/
def loadText (delimiter : Option Char) (lines : List (List Char)) (skip maxRows : ℕ) : Except Err (NDArr PyNum) :=
  if lines.length < skip then .error .other
  else do
    let rows ← (linesRead delimiter lines skip maxRows).mapM (readRow delimiter)
    loadtxtArray rows

/-- /repo/resistics/time.py:1010-1059 `TimeReaderAscii.read_data` from the lines of the file.  `readFrom` is non-negative when it comes
from `getReadSamples`. -/
def readDataText (delimiter : Option Char) (nHeader : ℕ) (lines : List (List Char)) (md : TimeMeta) (readFrom readTo : ℤ) :
    Except Err (TimeMeta × NDArr PyNum) := do
  let data ← loadText delimiter lines (readFrom.toNat + nHeader) (readTo - readFrom + 1).toNat
  let md ← getReturnMetadata md readFrom readTo
  return ({ md with history := md.history ++ ["TimeReaderAscii"] }, data)

/-- `TimeReader.run` of a `TimeReaderAscii` with metadata that were given or read (/repo/resistics/time.py:748-766, 1010-1059). -/
def readText (delimiter : Option Char) (nHeader : ℕ) (text : List Char) (md : TimeMeta) (r : ReadReq) :
    Except Err (TimeMeta × NDArr PyNum) := do
  let ab ← getReadSamples md r
  readDataText delimiter nHeader (textLines text) md ab.1 ab.2

/-! ## Files -/

/-- A channel's samples as lines, for `writeTimeAscii`. -/
def channelLines (row : List ℚ) : List String := row.map fun x => String.ofList (fixedText x)

/-- The text of a file. -/
def contentText {W : Type} : Content W → Except Err (List (List Char))
  | .text ls => .ok (ls.map String.toList)
  | _ => .error .value

/-- `TimeReaderAscii(extension, delimiter, n_header).run(dir_path)` (/repo/resistics/time.py:748-766, 979-994, 1037-1059): all samples
come from the first data file of the first channel. -/
def readTimeAsciiFiles {W : Type} (ext : String) (delimiter : Option Char) (nHeader : ℕ) (fs : FS W) (dir : Path) (r : ReadReq) :
    Except Err (TimeMeta × NDArr PyNum) := do
  let mf ← fs.timeMetadata ext dir
  let ab ← getReadSamples mf.1 r
  let chan ← pyIndex mf.1.chans 0
  let fileList ← dictGet mf.2 chan
  let name ← pyIndex fileList 0
  let c ← fs.content (dir ++ [name])
  let ls ← contentText c
  readDataText delimiter nHeader ls mf.1 ab.1 ab.2

end Resistics
