import Verif.Model.Resolver
import Verif.Model.Geometry
import Verif.Spec.Encoding
import Verif.Spec.ToUnicode
import Verif.Spec.Type1
import Verif.Spec.Widths
import Verif.Spec.Token
/-! Specification of fonts (C47, C48, C81): where the text and the width of a character code come from (ISO 32000-1, 9.6, 9.7, 9.10.2). -/

namespace Pdf.Spec
open Pdf (Bytes Tok Obj Key PyStr Resolver nm dictGet utf8)

/-- What a font dictionary refers to: the objects of the file, and the decoded data of a stream. -/
structure FontFile where
  R : Resolver
  data : List (Key × Obj) → Bytes → Option Bytes

/-- The object that an entry of a dictionary stands for, after following references. -/
inductive Entry (R : Resolver) (d : List (Key × Obj)) (key : String) : Option Obj → Prop
  | absent : dictGet d (nm key) = none → Entry R d key none
  | given {o v} : dictGet d (nm key) = some o → R.resolve1 o = .ok v → Entry R d key (some v)

/-- The entries of the `ToUnicode` map of a font dictionary; `none` if it has no map. -/
inductive ToUnicodeOf (F : FontFile) (spec : List (Key × Obj)) : Option (List BfEntry) → Prop
  | absent : Entry F.R spec "ToUnicode" none → ToUnicodeOf F spec none
  | map {d raw data pts es} : Entry F.R spec "ToUnicode" (some (.stream d raw)) → F.data d raw = some data → Text 0 pts data [] →
      CMapText (pts.map Prod.snd) es → (∀ e ∈ es, e.Sane) → ToUnicodeOf F spec (some es)

/-- The name of the base encoding and the differences of a font dictionary. -/
inductive EncodingOf (R : Resolver) (spec : List (Key × Obj)) : Bytes → List Obj → Prop
  | absent : Entry R spec "Encoding" none → EncodingOf R spec (ascii "StandardEncoding") []
  | named {n} : Entry R spec "Encoding" (some (.name n)) → EncodingOf R spec n []
  | dict {d name diff} : Entry R spec "Encoding" (some (.dict d)) →
      (dictGet d (nm "BaseEncoding") = none ∧ name = ascii "StandardEncoding" ∨ dictGet d (nm "BaseEncoding") = some (.name name)) →
      (Entry R d "Differences" none ∧ diff = [] ∨ Entry R d "Differences" (some (.arr diff))) → EncodingOf R spec name diff

/-- The characters of the encoding with this name: the standard encoding if the name is unknown. -/
def baseText (name : Bytes) (code : Int) : Option PyStr :=
  let table := ((builtinEncodings.find? fun e => name = ascii e.1).map Prod.snd).getD stdChar
  if 0 ≤ code then (table code.toNat).map fun ch => [ch.toNat] else none

/-- The text of a code: what the `ToUnicode` map says, in UTF-16, and if it says nothing, `other`. -/
inductive CodeText (es : Option (List BfEntry)) (other : Option PyStr) (code : Nat) : Option PyStr → Prop
  | unicode {l s} : es = some l → TextOfCode l code (some (utf16 s)) → CodeText es other code (some (s.map Char.toNat))
  | other : (∀ l, es = some l → TextOfCode l code none) → CodeText es other code other

/-- The kinds of fonts. TrueType fonts and unknown ones count as Type 1. -/
inductive FontKind where
  | type1 | type3 | cid | composite

/-- The kind of a font by its `Subtype`. -/
def fontKind (spec : List (Key × Obj)) : FontKind :=
  match dictGet spec (nm "Subtype") with
  | some (.name n) => if n = ascii "Type3" then .type3 else if n = ascii "CIDFontType0" ∨ n = ascii "CIDFontType2" then .cid
      else if n = ascii "Type0" then .composite else .type1
  | _ => .type1

/-- The entry `BaseFont` is the name of a font that the library has metrics for (`metrics`): the fourteen standard fonts. -/
def Standard14 {α : Type} (metrics : PyStr → Option α) (spec : List (Key × Obj)) (m : α) : Prop :=
  ∃ n s, dictGet spec (nm "BaseFont") = some (.name n) ∧ utf8 n = some s ∧ metrics s = some m

/-- The descriptor of a font, and the widths by character if it is one of the standard fonts. -/
inductive DescriptorOf (R : Resolver) (metrics : PyStr → Option (List (Key × Obj) × List (PyStr × Obj))) (spec : List (Key × Obj)) :
    List (Key × Obj) → Option (List (PyStr × Obj)) → Prop
  | standard {d w} : Standard14 metrics spec (d, w) → DescriptorOf R metrics spec d (some w)
  | own {d} : (∀ m, ¬ Standard14 metrics spec m) → Entry R spec "FontDescriptor" (some (.dict d)) → DescriptorOf R metrics spec d none
  | missing : (∀ m, ¬ Standard14 metrics spec m) → Entry R spec "FontDescriptor" none → DescriptorOf R metrics spec [] none

/-- The entries `code name` in the font program of a descriptor; `none` if there is no Type 1 font program. Only the first `Length1` bytes are in
clear text. -/
inductive ProgramOf (F : FontFile) (d : List (Key × Obj)) : Option (List (Int × Bytes)) → Prop
  | absent : dictGet d (nm "FontFile") = none → ProgramOf F d none
  | program {sd raw data pts es} {n : Nat} : Entry F.R d "FontFile" (some (.stream sd raw)) → Entry F.R sd "Length1" (some (.int n)) →
      F.data sd raw = some data → Text 0 pts (data.take n) [] → T1Text (pts.map Prod.snd) es → ProgramOf F d (some es)

/-- The text of a code in the font program, or in the standard encoding. -/
inductive BuiltinText (glyph : Bytes → Option PyStr) (program : Option (List (Int × Bytes))) (code : Int) : Option PyStr → Prop
  | program {es u} : program = some es → LastNamed glyph es code u → BuiltinText glyph program code u
  | standard : program = none → BuiltinText glyph program code (baseText (ascii "StandardEncoding") code)

/-- `NumberAt R d key default q`: the entry is the number `q`; `default` if it is missing. -/
inductive NumberAt (R : Resolver) (d : List (Key × Obj)) (key : String) (default : ℚ) : ℚ → Prop
  | absent : Entry R d key none → NumberAt R d key default default
  | given {v q} : Entry R d key (some v) → v.num? = some q → NumberAt R d key default q

/-- The text of a code of a CID font: what the `ToUnicode` map says if there is one, else what the character collection says. -/
inductive CidText (es : Option (List BfEntry)) (collection : Option PyStr) (code : Nat) : Option PyStr → Prop
  | unicode {l s} : es = some l → TextOfCode l code (some (utf16 s)) → CidText es collection code (some (s.map Char.toNat))
  | unknown {l} : es = some l → TextOfCode l code none → CidText es collection code none
  | collection : es = none → CidText es collection code collection

/-- `Registry-Ordering`. -/
def collectionName (registry ordering : Bytes) : PyStr := registry.map UInt8.toNat ++ 45 :: ordering.map UInt8.toNat

/-- The font that the first successful request with this object number has built. -/
inductive FirstBuilt {ε σ φ : Type} (build : σ → Except ε φ) (calls : List (Option Int × σ)) (k : Int) : Option φ → Prop
  | found {before spec after f} : calls = before ++ (some k, spec) :: after → build spec = .ok f →
      (∀ spec', (some k, spec') ∈ before → ∀ f', build spec' ≠ .ok f') → FirstBuilt build calls k (some f)
  | none : (∀ spec', (some k, spec') ∈ calls → ∀ f', build spec' ≠ .ok f') → FirstBuilt build calls k none

end Pdf.Spec
