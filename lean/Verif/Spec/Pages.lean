import Verif.Model.Resolver
/-! Page trees (ISO 32000-1, 7.7.3), independent of the code that walks them. -/

namespace Pdf.Spec
open Pdf

abbrev Dict := List (Key × Obj)

/-- A page tree: pages with their object numbers and dictionaries, and inner nodes. -/
inductive PageTree where
  | page (id : Int) (attrs : Dict)
  | pages (attrs : Dict) (kids : List PageTree)

mutual
/-- The pages in document order, each with the dictionaries from the page up to the root; `above` are those above the tree. -/
def PageTree.leaves (above : List Dict) : PageTree → List (Int × List Dict)
  | .page id d => [(id, d :: above)]
  | .pages d kids => leavesAll (d :: above) kids
def leavesAll (above : List Dict) : List PageTree → List (Int × List Dict)
  | [] => []
  | t :: ts => t.leaves above ++ leavesAll above ts
end

mutual
/-- The reference `o` leads to the page tree. -/
inductive IsTree (R : Resolver) : Obj → PageTree → Prop
  | page {i g d} : R.resolve1 (.ref i g) = .ok (.dict d) → dictGet d (.name (asc "Type")) = some (.name (asc "Page")) → IsTree R (.ref i g) (.page i d)
  | pages {i g d kids l ts} : R.resolve1 (.ref i g) = .ok (.dict d) → dictGet d (.name (asc "Type")) = some (.name (asc "Pages")) →
      dictGet d (.name (asc "Kids")) = some kids → R.resolve1 kids = .ok (.arr l) → IsTrees R l ts → IsTree R (.ref i g) (.pages d ts)
inductive IsTrees (R : Resolver) : List Obj → List PageTree → Prop
  | nil : IsTrees R [] []
  | cons {o t os ts} : IsTree R o t → IsTrees R os ts → IsTrees R (o :: os) (t :: ts)
end

/-- The attributes that pages inherit. -/
def Inherited (k : Key) : Prop := k ∈ [Key.name (asc "Resources"), .name (asc "MediaBox"), .name (asc "CropBox"), .name (asc "Rotate")]
instance (k) : Decidable (Inherited k) := inferInstanceAs (Decidable (_ ∈ _))

/-- The value of an attribute of a page, given its dictionary and those of its ancestors, nearest first. -/
def pageAttr (ds : List Dict) (k : Key) : Option Obj :=
  if Inherited k then ds.findSome? fun d => dictGet d k
  else ds.head?.bind fun d => dictGet d k

/-- The content streams of a page: an array of them, or a single one. -/
def streamsOf : Obj → List Obj
  | .arr l => l
  | o => [o]

end Pdf.Spec
