import Verif.Model.Species

/-!
# Model of `Symmetrix.__init__`, symmetrix_calc.py:39-70

Files are texts.  Parameters: what an evaluator makes of the text of a file (`none` is the `RuntimeError` into which pybind11 turns the
exceptions of nlohmann's parser), `torch.load` (`none` is any exception), and `json.dumps`.  Not modelled: `Calculator.__init__` (which
stores the keyword arguments), the start of Kokkos, messages, and `head`.
-/

namespace Verif.Calculator
open Verif.MACE Verif.Extract Verif.Species

inductive Exc where
  | value
  | runtime
  | type
  | extraction
deriving DecidableEq

inductive Class where
  | mace
  | maceKokkos
  | maceKokkosFloat
deriving DecidableEq

/-- The class of the evaluator, symmetrix_calc.py:41-53. -/
def classOf (hasKokkos useKokkos : Bool) (dtype : String) : Except Exc Class :=
  if ¬ (dtype = "float32" ∨ dtype = "float64") then .error .value
  else if useKokkos ∧ ¬ hasKokkos then .error .runtime
  else if useKokkos then .ok (if dtype = "float64" then .maceKokkos else .maceKokkosFloat)
  else if dtype = "float32" then .error .value
  else .ok .mace

/-- Keyword arguments picked for the conversion, symmetrix_calc.py:59-62: `species` may be missing, be `None`, or a list;
`num_spline_points` may be missing. -/
structure Kwargs where
  species : Option (Option (List Sp))
  points : Option ℕ

/-- What another reader sees of a text written to a file that was neither flushed nor closed (symmetrix_calc.py:65-68): `io.TextIOWrapper`
hands one long text to `io.BufferedWriter`, which keeps it if it fits into the buffer (`buf` is `io.DEFAULT_BUFFER_SIZE`) and
otherwise writes it in one piece to the file (the operating system is assumed to accept it at once, which Linux does up to
2147479552 bytes). -/
def visible (buf : ℕ) (text : List Char) : List Char := if text.length ≤ buf then [] else text

/-- The environment. -/
structure World where
  /-- `MACE(filename)` on a file with this text -/
  evaluator : List Char → Option File
  torchLoad : List Char → Option Torch
  dumps : File → List Char
  buf : ℕ
  der : List ℝ → List ℝ
  inv : ℕ → (ℕ → ℕ → ℝ) → Option (ℕ → ℕ → ℝ)

/-- `extract_mace_data(model_file, **kwargs_extract)`, symmetrix_calc.py:64: `species` has no default value (extract_mace_data.py:19). -/
noncomputable def convert (W : World) (content : List Char) (kw : Kwargs) : Except Exc File :=
  match kw.species with
  | none => .error .type
  | some sp => match W.torchLoad content with
    | none => .error .extraction
    | some M => match extractFor (kw.points.getD 256) W.der W.inv sp M with
      | none => .error .extraction
      | some f => .ok f

/-- `__init__`, symmetrix_calc.py:39-70: class of the evaluator and the data in it. -/
noncomputable def init (W : World) (hasKokkos useKokkos : Bool) (dtype : String) (content : List Char) (kw : Kwargs) : Except Exc (Class × File) :=
  match classOf hasKokkos useKokkos dtype with
  | .error e => .error e
  | .ok c => match W.evaluator content with
    | some f => .ok (c, f)
    | none => match convert W content kw with
      | .error e => .error e
      | .ok f => match W.evaluator (visible W.buf (W.dumps f)) with
        | some g => .ok (c, g)
        | none => .error .runtime

end Verif.Calculator
