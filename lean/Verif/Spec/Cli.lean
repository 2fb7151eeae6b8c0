import Verif.Model.Cli
import Verif.Spec.ConvertFile
import Verif.Spec.WrittenLines
/-! Specification for C108: the command line. -/

namespace Pdf.Spec

/-- Spaces and tabs. -/
def Blanks (s : PyStr) : Prop := ∀ c ∈ s, c = ' '.toNat ∨ c = '\t'.toNat

/-- `PageList s ns`: the text `s` lists the numbers `ns` in decimal, with commas between them. -/
inductive PageList : PyStr → List Nat → Prop
  | one {a ds b} : Blanks a → Num ds → Blanks b → PageList (a ++ ds.map UInt8.toNat ++ b) [decimal ds]
  | cons {a ds b s ns} : Blanks a → Num ds → Blanks b → PageList s ns → PageList (a ++ ds.map UInt8.toNat ++ b ++ pstr "," ++ s) (decimal ds :: ns)

/-- The pages of `l` whose numbers, counted from one, are in `ns`; all of them if no numbers are given. -/
def chosen {α : Type} (ns : Option (List Nat)) (l : List α) : List α :=
  match ns with
  | none => l
  | some ns => ((l.zipIdx 1).filter fun x => decide (x.2 ∈ ns)).map Prod.fst

/-- The argument of `--pagenos` asks for these numbers. -/
inductive Asks : Option PyStr → Option (List Nat) → Prop
  | all : Asks none none
  | empty : Asks (some []) none
  | some {s ns} : PageList s ns → Asks (some s) (some ns)

end Pdf.Spec
