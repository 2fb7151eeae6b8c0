import Verif.Spec.Xref
import Verif.Spec.Object
/-! The body of a PDF file, as a scan for objects sees it. -/

namespace Pdf.Spec
open Pdf (Bytes)

/-- White space of the Latin-1 character set, as regular expressions understand it. -/
def SpaceL (c : UInt8) : Prop := c ∈ ([9, 10, 11, 12, 13, 28, 29, 30, 31, 32, 133, 160] : Bytes)
instance (c) : Decidable (SpaceL c) := inferInstanceAs (Decidable (_ ∈ _))

/-- Letters, digits and the underscore of the Latin-1 character set, as regular expressions understand them. -/
def WordL (c : UInt8) : Prop :=
  Digit c ∨ (65 ≤ c ∧ c ≤ 90) ∨ (97 ≤ c ∧ c ≤ 122) ∨ c ∈ ([95, 170, 178, 179, 181, 185, 186, 188, 189, 190] : Bytes) ∨ (192 ≤ c ∧ c ≠ 215 ∧ c ≠ 247)

/-- A line that begins `i g obj`. -/
inductive Cue : Bytes → Nat → Nat → Prop
  | mk {d1 s1 d2 s2 r : Bytes} : Num d1 → s1 ≠ [] → (∀ c ∈ s1, SpaceL c) → Num d2 → s2 ≠ [] → (∀ c ∈ s2, SpaceL c) → (∀ c ∈ r.head?, ¬ WordL c) →
      Cue (d1 ++ (s1 ++ (d2 ++ (s2 ++ ([111, 98, 106] ++ r))))) (decimal d1) (decimal d2)

end Pdf.Spec
