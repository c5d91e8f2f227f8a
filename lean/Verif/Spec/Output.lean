import Verif.Model.Output

/-!
# Reading the output

What a reader of the output files and of the standard output understands: numbers as `float` reads them, a file of numbers as
`numpy.loadtxt` reads it, a line of the plot information by its label.
-/

namespace Verif.Spec
open Verif.Text

/-- value of a decimal digit -/
def digitVal (c : Char) : Nat := c.toNat - '0'.toNat

/-- value of a row of decimal digits -/
def natOf (s : Txt) : Nat := s.foldl (fun n c => 10 * n + digitVal c) 0

/-- an integer with or without a minus sign -/
def readInt (s : Txt) : Option Int :=
  match s with
  | '-' :: d => if d ≠ [] ∧ d.all Char.isDigit then some (-(natOf d : Int)) else none
  | d => if d ≠ [] ∧ d.all Char.isDigit then some (natOf d : Int) else none

/-- the exponent part of a number -/
def readExp : Txt → Option Int
  | [] => some 0
  | 'E' :: '+' :: d => if d ≠ [] ∧ d.all Char.isDigit then some (natOf d : Int) else none
  | 'E' :: '-' :: d => if d ≠ [] ∧ d.all Char.isDigit then some (-(natOf d : Int)) else none
  | _ => none

section
variable {K : Type} [Field K]

/-- a number without sign: `digits [. digits] [E ± digits]` -/
def readAbs (s : Txt) : Option K :=
  let ip := s.takeWhile Char.isDigit
  if ip = [] then none
  else match s.dropWhile Char.isDigit with
    | '.' :: r =>
      let fp := r.takeWhile Char.isDigit
      (readExp (r.dropWhile Char.isDigit)).map fun e : Int => (natOf (ip ++ fp) : K) * 10 ^ (e - fp.length)
    | r => (readExp r).map fun e : Int => (natOf ip : K) * 10 ^ e

/-- `float(s)` -/
def readNum : Txt → Option K
  | '-' :: s => (readAbs s).map fun v => -v
  | s => readAbs s

/-- the pieces of a text between separators -/
def pieces (sep : Char) : Txt → List Txt
  | [] => [[]]
  | c :: s =>
    if c = sep then [] :: pieces sep s
    else match pieces sep s with
      | [] => [[c]]
      | l :: r => (c :: l) :: r

/-- pieces that are not empty -/
def parts (sep : Char) (s : Txt) : List Txt := (pieces sep s).filter fun l => decide (l ≠ [])

/-- `numpy.loadtxt`: the numbers of every line that is not empty -/
def loadtxt (s : Txt) : Option (List (List K)) := (parts '\n' s).mapM fun l => (parts ' ' l).mapM readNum

end

/-- what follows the label in the first line that begins with it -/
def field (label text : Txt) : Option Txt :=
  ((pieces '\n' text).find? fun l => label.isPrefixOf l).map fun l => l.drop label.length

/-- the two time slices a message of the tracking names: its fifth and its seventh word -/
def slices (s : Txt) : Option (Int × Int) :=
  match parts ' ' s with
  | _ :: _ :: _ :: _ :: a :: _ :: b :: _ => (readInt a).bind fun i => (readInt (b.filter (· ≠ ','))).map fun j => (i, j)
  | _ => none

section
variable {K : Type} [Field K] [LinearOrder K]

/-- `y` is `x` to `p + 1` significant digits -/
def Digits (p : ℕ) (x y : K) : Prop := |y - x| ≤ |x| / (2 * 10 ^ p)

/-- `y` is `x` to `p` decimal places -/
def Places (p : ℕ) (x y : K) : Prop := |y - x| ≤ 1 / (2 * 10 ^ p)

/-- The file exists and holds one number in each line, those of `l` in this order, to eight significant digits. -/
def Holds8 (d : Dir) (name : Txt) (l : List K) : Prop :=
  ∃ (text : Txt) (ys : List K), d name = some text ∧ loadtxt text = some (ys.map fun y => [y]) ∧ List.Forall₂ (Digits 7) l ys

/-- The file exists and holds in line `k` the number `k` and the element `k` of `l` to eight significant digits. -/
def HoldsNumbered (d : Dir) (name : Txt) (l : List K) : Prop :=
  ∃ (text : Txt) (ys : List K), d name = some text ∧ loadtxt text = some (ys.mapIdx fun k y => [(k : K), y])
    ∧ List.Forall₂ (Digits 7) l ys

end

/-- The messages of a tracking from profile `r` of `P`: one for every other profile, upwards first, then downwards, counted
from one. -/
def trackMessages (P r : ℕ) : List (ℕ × ℕ) :=
  ((List.range (P - 1 - r)).map fun k => (r + 1, r + 1 + k + 1)) ++ ((List.range r).map fun k => (r + 1, r - k))

end Verif.Spec
