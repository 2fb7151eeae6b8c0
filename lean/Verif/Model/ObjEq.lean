import Verif.Model.StackParser
/-! Decidable equality of objects (no counterpart in the code; used to evaluate examples). -/

namespace Pdf

mutual
/-- Equality of objects is decidable; no code of its own (used for `==` at PDFPage.py:90-114). -/
def Obj.decEq : (a b : Obj) → Decidable (a = b)
  | .null, b => match b with
    | .null => isTrue rfl
    | .int _ | .real _ _ | .bool _ | .str _ | .name _ | .kw _ | .ref _ _ | .arr _ | .dict _ | .stream _ _ => isFalse (by simp)
  | .int n, b => match b with
    | .int m => decidable_of_iff (n = m) (by simp)
    | .null | .real _ _ | .bool _ | .str _ | .name _ | .kw _ | .ref _ _ | .arr _ | .dict _ | .stream _ _ => isFalse (by simp)
  | .real n k, b => match b with
    | .real m l => decidable_of_iff (n = m ∧ k = l) (by simp)
    | .null | .int _ | .bool _ | .str _ | .name _ | .kw _ | .ref _ _ | .arr _ | .dict _ | .stream _ _ => isFalse (by simp)
  | .bool n, b => match b with
    | .bool m => decidable_of_iff (n = m) (by simp)
    | .null | .real _ _ | .int _ | .str _ | .name _ | .kw _ | .ref _ _ | .arr _ | .dict _ | .stream _ _ => isFalse (by simp)
  | .str n, b => match b with
    | .str m => decidable_of_iff (n = m) (by simp)
    | .null | .real _ _ | .int _ | .bool _ | .name _ | .kw _ | .ref _ _ | .arr _ | .dict _ | .stream _ _ => isFalse (by simp)
  | .name n, b => match b with
    | .name m => decidable_of_iff (n = m) (by simp)
    | .null | .real _ _ | .int _ | .bool _ | .str _ | .kw _ | .ref _ _ | .arr _ | .dict _ | .stream _ _ => isFalse (by simp)
  | .kw n, b => match b with
    | .kw m => decidable_of_iff (n = m) (by simp)
    | .null | .real _ _ | .int _ | .bool _ | .str _ | .name _ | .ref _ _ | .arr _ | .dict _ | .stream _ _ => isFalse (by simp)
  | .ref n k, b => match b with
    | .ref m l => decidable_of_iff (n = m ∧ k = l) (by simp)
    | .null | .real _ _ | .int _ | .bool _ | .str _ | .name _ | .kw _ | .arr _ | .dict _ | .stream _ _ => isFalse (by simp)
  | .arr x, b => match b with
    | .arr y => match Obj.decEqs x y with
      | isTrue h => isTrue (by rw [h])
      | isFalse h => isFalse (by simpa using h)
    | .null | .real _ _ | .int _ | .bool _ | .str _ | .name _ | .kw _ | .ref _ _ | .dict _ | .stream _ _ => isFalse (by simp)
  | .dict x, b => match b with
    | .dict y => match Obj.decEqItems x y with
      | isTrue h => isTrue (by rw [h])
      | isFalse h => isFalse (by simpa using h)
    | .null | .real _ _ | .int _ | .bool _ | .str _ | .name _ | .kw _ | .ref _ _ | .arr _ | .stream _ _ => isFalse (by simp)
  | .stream x d, b => match b with
    | .stream y e => match Obj.decEqItems x y with
      | isTrue h => if h2 : d = e then isTrue (by rw [h, h2]) else isFalse (by simp [h2])
      | isFalse h => isFalse (by simp [h])
    | .null | .real _ _ | .int _ | .bool _ | .str _ | .name _ | .kw _ | .ref _ _ | .arr _ | .dict _ => isFalse (by simp)
/-- Equality of lists of objects is decidable (see PDFPage.py:90-114). -/
def Obj.decEqs : (a b : List Obj) → Decidable (a = b)
  | [], [] => isTrue rfl
  | [], _ :: _ => isFalse (by simp)
  | _ :: _, [] => isFalse (by simp)
  | x :: xs, y :: ys => match Obj.decEq x y with
    | isTrue h => match Obj.decEqs xs ys with
      | isTrue h2 => isTrue (by rw [h, h2])
      | isFalse h2 => isFalse (by simp [h2])
    | isFalse h => isFalse (by simp [h])
/-- Equality of dictionaries is decidable (see PDFPage.py:90-114). -/
def Obj.decEqItems : (a b : List (Key × Obj)) → Decidable (a = b)
  | [], [] => isTrue rfl
  | [], _ :: _ => isFalse (by simp)
  | _ :: _, [] => isFalse (by simp)
  | (k, x) :: xs, (l, y) :: ys =>
    if hk : k = l then
      match Obj.decEq x y with
      | isTrue h => match Obj.decEqItems xs ys with
        | isTrue h2 => isTrue (by rw [h, h2, hk])
        | isFalse h2 => isFalse (by simp [h2])
      | isFalse h => isFalse (by simp [h])
    else isFalse (by simp [hk])
end

instance : DecidableEq Obj := Obj.decEq

end Pdf
