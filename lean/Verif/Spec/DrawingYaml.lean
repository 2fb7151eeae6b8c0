import Verif.Spec.DrawingJson
import Verif.Spec.ConvYaml
import Verif.Spec.WrittenLines
/-! What a written page with pictures, lines and text is in the YAML document (C120). -/

namespace Pdf.Spec
open Pdf

/-- The member of a colour of a page: its type and the integers nearest to 255 times the components; no colour, no member. -/
inductive ColorMembers (fmt : ℚ → PyStr) (key : PyStr) : Option (Dec × Dec × Dec) → List (PyStr × Yaml) → Prop
  | none : ColorMembers fmt key none []
  | some {r g b : Dec} {x y z : Int} {s t u : PyStr} : Nearest (r.val * 255) x → Nearest (g.val * 255) y → Nearest (b.val * 255) z →
      ValueText fmt (.int x) s → ValueText fmt (.int y) t → ValueText fmt (.int z) u →
      ColorMembers fmt key (some (r, g, b)) [(key, .map [(pstr "type", .scalar (pstr "DeviceRGB")), (pstr "value", .seq [.scalar s, .scalar t, .scalar u])])]

/-- The mapping of a shape of this type: its paths if there are any, the smallest box with these points if they are `given`, the colour to fill with and the colour
of lines. -/
def ShapeYaml (env : YamlEnv) (type : String) (σ : Paint) (paths : List (PyStr × Yaml)) (given : Prop) (pts : List (ℚ × ℚ)) (v : Yaml) : Prop :=
  ∃ b q s, (given → SmallestBox b pts) ∧ ColorMembers env.fmt (pstr "fill") σ.fill q ∧ ColorMembers env.fmt (pstr "stroke") σ.stroke s ∧
    v = .map ((pstr "type", .scalar (pstr type)) :: paths ++ boxYaml env b ++ q ++ s)

/-- The mapping of a path to one point. -/
def pathYaml1 (fmt : ℚ → PyStr) (method : String) (p : Pt) : Yaml :=
  .map [(pstr "type", .scalar (pstr method)), (pstr "points", .seq [.map [(pstr "x", .scalar (fmt p.1.val)), (pstr "y", .scalar (fmt p.2.val))]])]

/-- The mappings of a mark, and the colours after it. -/
inductive MarkYaml (env : YamlEnv) (f : Font) (images : List (List (Key × Obj) × Bytes)) : Paint → Mark → Paint → List Yaml → Prop
  | fill {σ r g b} : MarkYaml env f images σ (.fill r g b) { σ with fill := some (r, g, b) } []
  | stroke {σ r g b} : MarkYaml env f images σ (.stroke r g b) { σ with stroke := some (r, g, b) } []
  | width {σ w} : MarkYaml env f images σ (.width w) σ []
  | rect {σ x y w h v} : ShapeYaml env "rect" σ [] True [(x.val, y.val), (x.val + w.val, y.val + h.val)] v → MarkYaml env f images σ (.rect x y w h) σ [v]
  | line {σ p q v} : ShapeYaml env "line" σ [] True [spot p, spot q] v → MarkYaml env f images σ (.path p q []) σ [v]
  | path {σ p q r more v} : ShapeYaml env "curve" σ [(pstr "paths", .seq (pathYaml1 env.fmt "MOVE_TO" p :: (q :: r :: more).map (pathYaml1 env.fmt "LINE_TO")))]
      (InRange ((p :: q :: r :: more).map spot)) ((p :: q :: r :: more).map spot) v → MarkYaml env f images σ (.path p q (r :: more)) σ [v]
  | image {σ i d raw a b c d' e f' name box} : images[i]? = some (d, raw) → YamlScalar (env.imageName d raw) name →
      (InRange (corners a b c d' e f') → SmallestBox box (corners a b c d' e f')) →
      MarkYaml env f images σ (.image i a b c d' e f') σ [.map ((pstr "type", .scalar (pstr "img")) :: (pstr "src", name) :: boxYaml env box)]
  | text {σ size x y s box q ds} : ColorMembers env.fmt (pstr "color") σ.fill q → TextBox f size x y s box →
      (∀ p ∈ env.descriptor f, ¬ leftOut p.1 → ∃ v, YamlScalar p.2 v ∧ (p.1, v) ∈ ds) →
      MarkYaml env f images σ (.text size x y s) σ [.map ((pstr "type", .scalar (pstr "text-block")) :: boxYaml env box ++
        [(pstr "char_blocks", .seq [.map ((pstr "size", .scalar (env.fmt (box.y1 - box.y0))) :: boxYaml env box ++ q ++ ds ++ [(pstr "text", textYaml (s.map UInt8.toNat))])])])]

/-- The mappings of marks, in their order. -/
inductive MarksYaml (env : YamlEnv) (f : Font) (images : List (List (Key × Obj) × Bytes)) : Paint → List Mark → List Yaml → Prop
  | nil {σ} : MarksYaml env f images σ [] []
  | cons {σ m σ' js ms l} : MarkYaml env f images σ m σ' js → MarksYaml env f images σ' ms l → MarksYaml env f images σ (m :: ms) (js ++ l)

/-- The mapping of page `num`: its number and size, and a mapping for every visible mark. A page begins without colours. -/
def LeafYaml (env : YamlEnv) (f : Font) (images : List (List (Key × Obj) × Bytes)) (num : Nat) (p : Leaf) (v : Yaml) : Prop :=
  ∃ l, MarksYaml env f images ⟨none, none⟩ p.marks l ∧
    v = .map [(pstr "id", .scalar (numText num)), (pstr "width", .scalar (env.fmt p.width.val)), (pstr "height", .scalar (env.fmt p.height.val)), (pstr "children", asSeq l)]

/-- YAML can carry the strings of a page: they are empty or plain scalars. -/
def PlainMark : Mark → Prop
  | .text _ _ _ s => s = [] ∨ Plain (s.map UInt8.toNat)
  | _ => True

end Pdf.Spec
