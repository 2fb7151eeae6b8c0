import Verif.Model.Text
/-! The names of attributes made from keys: where a word of a key begins, and the words joined by hyphens. Independent of the model. -/

namespace Pdf.Spec

/-- A capital letter A to Z. -/
def Capital (c : Nat) : Prop := 'A'.toNat ≤ c ∧ c ≤ 'Z'.toNat

/-- A small letter a to z. -/
def Small (c : Nat) : Prop := 'a'.toNat ≤ c ∧ c ≤ 'z'.toNat

/-- A digit 0 to 9. -/
def Numeral (c : Nat) : Prop := '0'.toNat ≤ c ∧ c ≤ '9'.toNat

/-- Between the parts `a` and `b` of a text a new word begins: `b` starts with a capital, and `a` ends in a small letter or a digit, or `b`
goes on with a small letter (and `a` does not end in a line feed). -/
def NewWord (a b : PyStr) : Prop :=
  ∃ x u, a.getLast? = some x ∧ b.head? = some u ∧ Capital u ∧
    (Small x ∨ Numeral x ∨ (x ≠ '\n'.toNat ∧ ∃ l, b.tail.head? = some l ∧ Small l))

/-- The words of a text: they make the text, none is empty, and one ends exactly where a new word begins. -/
structure WordsOf (s : PyStr) (ws : List PyStr) : Prop where
  all : ws.flatten = s
  nonempty : ∀ w ∈ ws, w ≠ []
  breaks : ∀ a b, s = a ++ b → a ≠ [] → b ≠ [] → ((∃ us vs, ws = us ++ vs ∧ us.flatten = a) ↔ NewWord a b)

/-- The small letter of a capital; other characters stay. -/
def smallOf (c : Nat) : Nat := if 'A'.toNat ≤ c ∧ c ≤ 'Z'.toNat then c - 'A'.toNat + 'a'.toNat else c

/-- Words in small letters, with hyphens between them. -/
def hyphened (ws : List PyStr) : PyStr := [ '-'.toNat ].intercalate (ws.map fun w => w.map smallOf)

/-- A word of a key: a capital and one or more small letters. -/
def KeyWord (w : PyStr) : Prop := ∃ u l, w = u :: l ∧ Capital u ∧ l ≠ [] ∧ ∀ c ∈ l, Small c

/-- A key made of letters and digits, with a letter first. -/
def PlainKey (k : PyStr) : Prop := ∃ c r, k = c :: r ∧ (Capital c ∨ Small c) ∧ ∀ x ∈ r, Capital x ∨ Small x ∨ Numeral x

end Pdf.Spec
