import Verif.Model.TrueType
import Verif.Spec.Png
/-! The table directory of TrueType files (OpenType specification, "Table Directory"). -/

namespace Pdf.Spec
open Pdf

/-- A table: its tag, checksum, and where it is. -/
structure TtTable where
  tag : Bytes
  checksum : Bytes
  offset : Bytes
  length : Bytes

/-- The fields have four bytes each. -/
def TtTable.Ok (t : TtTable) : Prop := t.tag.length = 4 ∧ t.checksum.length = 4 ∧ t.offset.length = 4 ∧ t.length.length = 4

/-- The bytes of an entry. -/
def TtTable.bytes (t : TtTable) : Bytes := t.tag ++ t.checksum ++ t.offset ++ t.length

/-- The header: the version, the number of tables, and three numbers for searching. -/
structure TtHeader (count : Nat) (t : Bytes) : Prop where
  parts : ∃ version n search, t = version ++ n ++ search ∧ version.length = 4 ∧ n.length = 2 ∧ beValue n = count ∧ search.length = 6

/-- Where the table with this tag is: the last one with it. -/
def tableAt (ts : List TtTable) (tag : Bytes) : Option (Nat × Nat) :=
  (ts.reverse.find? fun t => t.tag = tag).map fun t => (beValue t.offset, beValue t.length)

end Pdf.Spec
