import Verif.Spec.CircuitText
import Verif.Model.Streams

/-!
# Specification of the `pinocchio` command

Decimal output, files with circuits and inputs, and honest runs.
-/

namespace Ethsnarks

open CText

/-- `s` is the usual decimal numeral of `n`: no sign, no superfluous zero. -/
def Decimal (s : List Char) (n : ℕ) : Prop := s ≠ [] ∧ Digits s ∧ decVal s = n ∧ (s.head? = some '0' → s = ['0'])

/-- The text consists of one line `wire=value` for each wire. -/
inductive OutLines (W : ℕ → Fp) : List ℕ → List Char → Prop
  | nil : OutLines W [] []
  | cons (w : ℕ) (ws : List ℕ) (a b t : List Char) : Decimal a w → Decimal b (W w).val → OutLines W ws t →
      OutLines W (w :: ws) (a ++ '=' :: (b ++ '\n' :: t))

/-- The text consists of one line `<tab>label wire = value` for each wire. -/
inductive ValLines (label : List Char) (W : ℕ → Fp) : List ℕ → List Char → Prop
  | nil : ValLines label W [] []
  | cons (w : ℕ) (ws : List ℕ) (a b t : List Char) : Decimal a w → Decimal b (W w).val → ValLines label W ws t →
      ValLines label W (w :: ws) ('\t' :: (label ++ ' ' :: (a ++ " = ".toList ++ (b ++ '\n' :: t))))

/-- The wires declared with `output`, in order. -/
def outputsOf : List Line → List ℕ
  | [] => []
  | .output w :: ls => w :: outputsOf ls
  | _ :: ls => outputsOf ls

/-- The file contains the circuit `ls`. -/
def CircuitFile (fs : Files) (path : List Char) (ls : List Line) : Prop :=
  ∃ txt hdr lines, fs path = some txt ∧ IsLines txt (hdr :: lines) ∧ Header hdr ∧ List.Forall₂ Denotes lines ls ∧
    (∀ line ∈ hdr :: lines, NoNul line) ∧ ∀ l ∈ ls, Plain l

/-- The file contains these values. -/
def InputFile (fs : Files) (path : List Char) (ins : List (ℕ × List Char)) : Prop :=
  ∃ txt lines, fs path = some txt ∧ IsLines txt lines ∧ (∀ line ∈ lines, NoNul line) ∧
    List.Forall₂ (fun line (p : ℕ × List Char) => InputLine line p.1 p.2) lines ins

end Ethsnarks
