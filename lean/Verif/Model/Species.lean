import Verif.Model.ExtractMACE

/-!
# Model of the choice of elements: `extract_mace_data.py:43-57`, `cli/extract_mace.py`

An entry of `species` is a Python `int` or `str`; other types are not modelled.  An exception is `none`.  `int(s)` is modelled for
ASCII text (Python also accepts other decimal digits and white space of Unicode) of at most 4300 digits (more digits are a
`ValueError` in Python).
-/

namespace Verif.Species
open Verif.MACE Verif.Extract

/-- An entry of `species`. -/
inductive Sp where
  | num (z : ℤ)
  | text (s : String)
deriving DecidableEq

/-- `ase.data.chemical_symbols`. -/
def chemicalSymbols : List String :=
  ["X", "H", "He", "Li", "Be", "B", "C", "N", "O", "F", "Ne", "Na", "Mg", "Al", "Si", "P", "S", "Cl", "Ar",
   "K", "Ca", "Sc", "Ti", "V", "Cr", "Mn", "Fe", "Co", "Ni", "Cu", "Zn", "Ga", "Ge", "As", "Se", "Br", "Kr",
   "Rb", "Sr", "Y", "Zr", "Nb", "Mo", "Tc", "Ru", "Rh", "Pd", "Ag", "Cd", "In", "Sn", "Sb", "Te", "I", "Xe",
   "Cs", "Ba", "La", "Ce", "Pr", "Nd", "Pm", "Sm", "Eu", "Gd", "Tb", "Dy", "Ho", "Er", "Tm", "Yb", "Lu",
   "Hf", "Ta", "W", "Re", "Os", "Ir", "Pt", "Au", "Hg", "Tl", "Pb", "Bi", "Po", "At", "Rn",
   "Fr", "Ra", "Ac", "Th", "Pa", "U", "Np", "Pu", "Am", "Cm", "Bk", "Cf", "Es", "Fm", "Md", "No", "Lr",
   "Rf", "Db", "Sg", "Bh", "Hs", "Mt", "Ds", "Rg", "Cn", "Nh", "Fl", "Mc", "Lv", "Ts", "Og"]

/-- White space which `int` removes at both ends (ASCII). -/
def isSpace (c : Char) : Bool := (9 ≤ c.toNat && c.toNat ≤ 13) || (28 ≤ c.toNat && c.toNat ≤ 32)

def strip (l : List Char) : List Char := ((l.dropWhile isSpace).reverse.dropWhile isSpace).reverse

/-- Digits after the first: one underscore may stand between two digits. -/
def digitsFrom : ℕ → List Char → Option ℕ
  | acc, [] => some acc
  | acc, c :: cs =>
    if c.isDigit then digitsFrom (10 * acc + (c.toNat - 48)) cs
    else if c = '_' then
      match cs with
      | [] => none
      | d :: ds => if d.isDigit then digitsFrom (10 * acc + (d.toNat - 48)) ds else none
    else none

def pyNat : List Char → Option ℕ
  | [] => none
  | c :: cs => if c.isDigit then digitsFrom (c.toNat - 48) cs else none

/-- Python's `int(s)` for a string `s`. -/
def pyInt (s : String) : Option ℤ :=
  match strip s.toList with
  | [] => none
  | c :: cs =>
    if c = '-' then (pyNat cs).map (fun n : ℕ => -(n : ℤ))
    else if c = '+' then (pyNat cs).map (fun n : ℕ => (n : ℤ))
    else (pyNat (c :: cs)).map (fun n : ℕ => (n : ℤ))

/-- `chemical_symbols.index(sp)`. -/
def symbolIndex (s : String) : Option ℤ := (chemicalSymbols.idxOf? s).map (fun i : ℕ => (i : ℤ))

/-- One turn of the loop over `species`, extract_mace_data.py:49-56. -/
def parse : Sp → Option ℤ
  | .num z => some z
  | .text s => match pyInt s with
    | some z => some z
    | none => symbolIndex s

/-- `extract_mace_data(model, species)`, extract_mace_data.py:18-519; `species` may be `None` (lines 44-45).  A negative number fails at
`model.atomic_numbers.tolist().index(a)`. -/
noncomputable def extractFor (n : ℕ) (der : List ℝ → List ℝ) (inv : ℕ → (ℕ → ℕ → ℝ) → Option (ℕ → ℕ → ℝ)) (species : Option (List Sp))
    (M : Torch) : Option File := do
  let zs ← (species.getD []).mapM parse
  if zs.all (fun z => decide (0 ≤ z)) then extract n der inv (zs.map Int.toNat) M else none

/-- `species`, cli/extract_mace.py:26 (the options exclude each other, each defaults to the empty list, given values are strings). -/
def cliSpecies (numbers symbols : List String) : List String := if symbols = [] then numbers else symbols

/-- Python's order of strings (by code points). -/
def strLe (s t : String) : Bool := decide (s.toList.map Char.toNat ≤ t.toList.map Char.toNat)

/-- The default name of the output, cli/extract_mace.py:32. -/
def cliName (model : List Char) (species : List String) : List Char :=
  model ++ ['-'] ++ List.intercalate ['-'] ((species.insertionSort (fun s t => strLe s t = true)).map String.toList) ++ ['.', 'j', 's', 'o', 'n']

/-- The command without `--output`, cli/extract_mace.py:8-36: name and contents of the file written.  `M` is the model in the file whose
name without directory and suffix is `model`. -/
noncomputable def cli (n : ℕ) (der : List ℝ → List ℝ) (inv : ℕ → (ℕ → ℕ → ℝ) → Option (ℕ → ℕ → ℝ)) (model : List Char) (M : Torch)
    (numbers symbols : List String) : Option (List Char × File) := do
  if numbers ≠ [] ∧ symbols ≠ [] then none
  let f ← extractFor n der inv (some ((cliSpecies numbers symbols).map Sp.text)) M
  some (cliName model (cliSpecies numbers symbols), f)

end Verif.Species
