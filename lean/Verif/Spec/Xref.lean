import Verif.Spec.Token
import Verif.Spec.Lines
/-! What a cross-reference table says (ISO 32000, 7.5.4), and the fields of a file between end-of-line bytes. -/

namespace Pdf.Spec
open Pdf (Bytes)

/-- `w` is `t` with white space around it. -/
def Trims (w t : Bytes) : Prop :=
  ∃ a b, w = a ++ t ++ b ∧ (∀ c ∈ a, White c) ∧ (∀ c ∈ b, White c) ∧ (∀ c ∈ t.head?, ¬ White c) ∧ (∀ c ∈ t.getLast?, ¬ White c)

def Blank (w : Bytes) : Prop := ∀ c ∈ w, White c

/-- `startxref` -/
def startxrefWord : Bytes := [115, 116, 97, 114, 116, 120, 114, 101, 102]

/-- A numeral. -/
def Num (ds : Bytes) : Prop := ds ≠ [] ∧ ∀ c ∈ ds, Digit c

/-- The text between end-of-line bytes: `a CR LF b` has the fields `a`, nothing, `b`. -/
def eolFields : Bytes → List Bytes
  | [] => [[]]
  | c :: cs =>
    if c = 10 ∨ c = 13 then [] :: eolFields cs
    else match eolFields cs with
      | f :: fs => (c :: f) :: fs
      | [] => [[c]]

/-- Lines standing one after another from position `p` on. -/
inductive LinesAt (data : Bytes) : Nat → List Bytes → Nat → Prop
  | nil {p} : LinesAt data p [] p
  | cons {p l w ls q} : data.drop p = l ++ w → IsLine l w → LinesAt data (p + l.length) ls q → LinesAt data p (l :: ls) q

/-- `oooooooooo ggggg n`: in use at offset `o`, generation `g`; with `f` instead of `n`: free. -/
inductive EntryLine : Bytes → Option (Nat × Nat) → Prop
  | used {l p g} : Trims l (p ++ 32 :: (g ++ [32, 110])) → Num p → Num g → EntryLine l (some (decimal p, decimal g))
  | free {l p g} : Trims l (p ++ 32 :: (g ++ [32, 102])) → Num p → Num g → EntryLine l none

/-- The lines of the objects from number `i` on. -/
inductive Entries : Nat → List Bytes → List (Nat × Option (Nat × Nat)) → Prop
  | nil {i} : Entries i [] []
  | cons {i l e ls es} : EntryLine l e → Entries (i + 1) ls es → Entries i (l :: ls) ((i, e) :: es)

/-- Subsections: a line `first count` and `count` entries; blank lines are allowed between subsections. -/
inductive Table : List Bytes → List (Nat × Option (Nat × Nat)) → Prop
  | nil : Table [] []
  | blank {l ls es} : Blank l → Table ls es → Table (l :: ls) es
  | section {l s n els ents ls es} : Trims l (s ++ 32 :: n) → Num s → Num n → Entries (decimal s) els ents →
      els.length = decimal n → Table ls es → Table (l :: (els ++ ls)) (ents ++ es)

/-- The last in-use entry for object `i`. -/
def lastUsed (i : Int) : List (Nat × Option (Nat × Nat)) → Option (Nat × Nat)
  | [] => none
  | (j, e) :: es => match lastUsed i es with
    | some x => some x
    | none => if (j : Int) = i then e else none

end Pdf.Spec
