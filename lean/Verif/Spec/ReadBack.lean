import Verif.Spec.ReportSpec

/-!
# How a person reads the figures of a report
-/
namespace BigO

/-- the decimal number at the start of a text, and what follows it -/
noncomputable def readNumber (l : List Char) : ℝ × List Char :=
  let whole := l.takeWhile Char.isDigit
  match l.dropWhile Char.isDigit with
  | '.' :: r =>
    let frac := r.takeWhile Char.isDigit
    ((Nat.ofDigitChars 10 whole 0 : ℝ) + (Nat.ofDigitChars 10 frac 0 : ℝ) / 10 ^ frac.length, r.dropWhile Char.isDigit)
  | r => ((Nat.ofDigitChars 10 whole 0 : ℝ), r)

/-- a number with a unit out of a table of units -/
noncomputable def readQuantity (units : List (List Char × ℝ)) (l : List Char) : Option ℝ :=
  (units.lookup (readNumber l).2).map ((readNumber l).1 * ·)

/-- a duration like `1.5ms`, in nanoseconds -/
noncomputable def readDuration (s : String) : Option ℝ :=
  readQuantity [(['n', 's'], 1), (['µ', 's'], 10 ^ 3), (['m', 's'], 10 ^ 6), (['s'], 10 ^ 9)] s.toList

/-- an amount of memory like `1.50KiB`, in bytes -/
noncomputable def readBytes (s : String) : Option ℝ :=
  readQuantity [(['b'], 1), (['K', 'i', 'B'], 2 ^ 10), (['M', 'i', 'B'], 2 ^ 20), (['G', 'i', 'B'], 2 ^ 30)] s.toList

/-- a whole number -/
def readNat (s : String) : Nat := Nat.ofDigitChars 10 s.toList 0

/-- the pieces of a text between the occurrences of a character -/
def piecesAt (sep : Char) : List Char → List (List Char)
  | [] => [[]]
  | c :: l =>
    if c = sep then [] :: piecesAt sep l
    else match piecesAt sep l with
      | p :: ps => (c :: p) :: ps
      | [] => [[c]]

/-- the cell shows about `ns` nanoseconds: up to one nanosecond and one part in 1999 -/
def AboutDuration (ns : ℝ) (cell : String) : Prop := ∃ y, readDuration cell = some y ∧ |y - ns| ≤ 1 + ns / 1999

/-- the text shows about that many bytes: up to 0.005 bytes and one part in 199 -/
def AboutBytes (bytes : ℝ) (cell : String) : Prop := ∃ b, readBytes cell = some b ∧ |b - bytes| ≤ 1 / 200 + bytes / 199

/-- the cell shows the memory of a pass over `n` elements: the sign of the change, or none, and about the largest excursion per element -/
def MemoryCell (s : SpacePass) (n : Nat) (cell : String) : Prop :=
  ∃ sign amount, cell = sign ++ amount ∧ (sign = signOf s ∨ sign = "") ∧ (ChangeVisible s → sign = signOf s) ∧
    AboutBytes (excursionPerElement s n) amount

/-- the lines of a text -/
def linesOf (s : String) : List String := (piecesAt '\n' s.toList).map String.ofList

/-- the words of a line -/
def wordsOf (s : String) : List String := ((piecesAt ' ' s.toList).filter (· ≠ [])).map String.ofList

/-- a row of the table of a regular algorithm: number of the pass, duration, memory, elements, memory and time per element -/
def RegularRow (k : String) (t : Duration) (s : SpacePass) (n : Nat) (line : String) : Prop :=
  ∃ d m e p, wordsOf line = [k, d, m, toString n, e, p] ∧ readDuration d = some (t : ℝ) ∧ MemoryCell s 1 m ∧ MemoryCell s n e ∧
    AboutDuration ((t : ℝ) / n) p

/-- a row of the table of an operation: number of the pass, duration, memory, some counts, and the time per `n` -/
def OperationRow (k : String) (t : Duration) (s : SpacePass) (counts : List Nat) (n : Nat) (line : String) : Prop :=
  ∃ d m p, wordsOf line = [k, d, m] ++ counts.map toString ++ [p] ∧ readDuration d = some (t : ℝ) ∧ MemoryCell s 1 m ∧
    AboutDuration ((t : ℝ) / n) p

/-- the line with the space verdict and the memory totals -/
def TotalsLine (m : SpaceMeasurements) (verdict : String) (line : String) : Prop :=
  ∃ change aux, AboutBytes |(totalChange m : ℝ)| change ∧ AboutBytes (totalAuxiliary m) aux ∧
    line = "--> Algorithm Space Analysis: " ++ verdict ++ " (" ++ (if totalChange m < 0 then "freed" else "allocated") ++ ": " ++ change ++
      "; auxiliary used space: " ++ aux ++ ")"

end BigO
