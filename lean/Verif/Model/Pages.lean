import Verif.Model.Resolver
/-! Model of parser/PDFPage.py and of `PDFInterpreter` (interpreter/__init__.py). -/

namespace Pdf

/-- `INHERITABLE_ATTRS` (PDFPage.py:75). -/
def inheritable : List Key := [nm "Resources", nm "MediaBox", nm "CropBox", nm "Rotate"]

/-- `for (k, v) in parent.items(): if k in INHERITABLE_ATTRS and k not in tree: tree[k] = v` (PDFPage.py:86-88). -/
def inherit (tree : List (Key × Obj)) : List (Key × Obj) → List (Key × Obj)
  | [] => tree
  | (k, v) :: rest => inherit (if k ∈ inheritable ∧ dictGet tree k = none then dictSet tree k v else tree) rest

/-- The node of the page tree (PDFPage.py:80-85): its object number and dictionary. Only numbers and references have an object number. -/
def pageNode (R : Resolver) (obj : Obj) : Except PyErr (Int × List (Key × Obj)) :=
  match obj with
  | .int n => match R.getobj n with
    | .error e => .error e
    | .ok o => match R.dictValue o with
      | .ok d => .ok (n, d)
      | .error e => .error e
  | .bool b => match R.getobj (if b then 1 else 0) with
    | .error e => .error e
    | .ok o => match R.dictValue o with
      | .ok d => .ok ((if b then 1 else 0), d)
      | .error e => .error e
  | .ref i g => match R.dictValue (.ref i g) with
    | .ok d => .ok (i, d)
    | .error e => .error e
  | _ => .error .attributeError

/-- `tree_type` (PDFPage.py:90-92). -/
def pageType (tree : List (Key × Obj)) : Option Obj :=
  match dictGet tree (nm "Type") with
  | some o => if o.isNull then dictGet tree (nm "type") else some o
  | none => dictGet tree (nm "type")

/-- `search` (PDFPage.py:79-101): the pages below a node. The `fuel` bounds the depth of the tree. -/
def pageSearch (R : Resolver) : (fuel : Nat) → Obj → List (Key × Obj) → Gen (Int × List (Key × Obj))
  | 0, _, _ => ([], some .recursion)
  | fuel + 1, obj, parent =>
    match pageNode R obj with
    | .error e => ([], some e)
    | .ok (objid, d) =>
      match pageType (inherit d parent), dictGet (inherit d parent) (nm "Kids") with
      | some (.name n), some kids =>
        if n = asc "Pages" then
          match R.listValue kids with
          | .error e => ([], some e)
          | .ok ks => Gen.each (fun c => pageSearch R fuel c (inherit d parent)) ks
        else if n = asc "Page" then ([(objid, inherit d parent)], none)
        else ([], none)
      | some (.name n), none => if n = asc "Page" then ([(objid, inherit d parent)], none) else ([], none)
      | _, _ => ([], none)

/-- `PDFPage` (PDFPage.py:43-70). -/
structure Page where
  pageid : Int
  attrs : List (Key × Obj)
  lastmod : Obj
  resources : Obj
  mediabox : Obj
  cropbox : Obj
  rotate : Int
  contents : List Obj
deriving DecidableEq

/-- A non-list is wrapped into a list (PDFPage.py:67-69). -/
def asList : Obj → List Obj
  | .arr l => l
  | o => [o]

/-- `resolve1(self.attrs['MediaBox'])` (PDFPage.py:55). -/
def mediaOf (R : Resolver) (attrs : List (Key × Obj)) : Except PyErr Obj :=
  match dictGet attrs (nm "MediaBox") with
  | none => .error .keyError
  | some o => R.resolve1 o

/-- The crop box (PDFPage.py:56-59). -/
def cropOf (R : Resolver) (attrs : List (Key × Obj)) (mediabox : Obj) : Except PyErr Obj :=
  match dictGet attrs (nm "CropBox") with
  | none => .ok mediabox
  | some o => R.resolve1 o

/-- The content streams (PDFPage.py:63-69). -/
def contentsOf (R : Resolver) (attrs : List (Key × Obj)) : Except PyErr (List Obj) :=
  match dictGet attrs (nm "Contents") with
  | none => .ok []
  | some o => match R.resolve1 o with
    | .ok o => .ok (asList o)
    | .error e => .error e

/-- `PDFPage.__init__` (PDFPage.py:43-70). -/
def mkPage (R : Resolver) (objid : Int) (attrs : List (Key × Obj)) : Except PyErr Page := do
  let lastmod ← R.resolve1 ((dictGet attrs (nm "LastModified")).getD .null)
  let resources ← R.resolve1 ((dictGet attrs (nm "Resources")).getD (.dict []))
  let mediabox ← mediaOf R attrs
  let cropbox ← cropOf R attrs mediabox
  let rotate ← R.intValue ((dictGet attrs (nm "Rotate")).getD (.int 0))
  let contents ← contentsOf R attrs
  .ok ⟨objid, attrs, lastmod, resources, mediabox, cropbox, (rotate + 360) % 360, contents⟩

/-- The fallback over all objects (PDFPage.py:108-118) when no page was found. -/
def scanPages (R : Resolver) : List Int → Gen Page
  | [] => ([], none)
  | i :: is =>
    match R.getobj i with
    | .error e => if e = .pdfObjectNotFound then scanPages R is else ([], some e)
    | .ok (.dict d) =>
      if dictGet d (nm "Type") = some (.name (asc "Page")) then
        match mkPage R i d with
        | .error e => if e = .pdfObjectNotFound then scanPages R is else ([], some e)
        | .ok p => (p :: (scanPages R is).1, (scanPages R is).2)
      else scanPages R is
    | .ok _ => scanPages R is

/-- `create_pages` (PDFPage.py:77-118). `objids` are the object numbers of all cross-reference sections. -/
def createPages (R : Resolver) (catalog : List (Key × Obj)) (objids : List Int) (fuel : Nat) : Gen Page :=
  let g : Gen Page := match dictGet catalog (nm "Pages") with
    | none => ([], none)
    | some o =>
      let s := pageSearch R fuel o catalog
      Gen.mapE (fun x => mkPage R x.1 x.2) s.1 s.2
  if g.1 = [] ∧ g.2 = none then scanPages R objids else g

/-- The loop of `get_pages` (PDFPage.py:132-137) from page number `pageno` on. `pagenos` is empty for `None` too. -/
def selectFrom {α : Type} (pagenos : List Int) (maxpages : Int) : (pageno : Nat) → List α → Option PyErr → Gen α
  | _, [], e => ([], e)
  | n, p :: ps, e =>
    if pagenos ≠ [] ∧ (n : Int) ∉ pagenos then selectFrom pagenos maxpages (n + 1) ps e
    else if maxpages ≠ 0 ∧ maxpages ≤ n + 1 then ([p], none)
    else (p :: (selectFrom pagenos maxpages (n + 1) ps e).1, (selectFrom pagenos maxpages (n + 1) ps e).2)

/-- `get_pages` (PDFPage.py:121-138) on the pages of the document. -/
def selectPages {α : Type} (pagenos : List Int) (maxpages : Int) (g : Gen α) : Gen α := selectFrom pagenos maxpages 0 g.1 g.2

/-! ### `PDFInterpreter` -/

/-- An iteration over a `PDFInterpreter` (interpreter/__init__.py:66-74): not started, going through the list of pages already
loaded, loading (the pages not yet loaded, with the number of the next one), or finished. -/
inductive Iter (α : Type) where
  | fresh
  | listing (i : Nat)
  | loading (rest : List α) (num : Nat)
  | finished

/-- What `next()` gives (interpreter/__init__.py:66-74). -/
inductive Step (α : Type) where
  | item (x : Nat × α)
  | stop
  | raise (e : PyErr)
deriving DecidableEq

/-- The state of a `PDFInterpreter`: the list `__pages` of numbered pages. The pages of the file are `file` and the exception after them (interpreter/__init__.py:19-41). -/
structure Interp (α : Type) where
  file : Gen α
  pages : List (Nat × α) := []

variable {α : Type}

/-- Continue loading (interpreter/__init__.py:43-64). -/
def Interp.load (I : Interp α) (rest : List α) (num : Nat) : Step α × Interp α × Iter α :=
  match rest with
  | p :: ps => (.item (num, p), { I with pages := I.pages ++ [(num, p)] }, .loading ps (num + 1))
  | [] =>
    match I.file.2 with
    | some e => (.raise e, I, .finished)
    | none => if I.pages = [] then (.raise .emptyDocument, I, .finished) else (.stop, I, .finished)

/-- Continue going through the list, which may have grown (interpreter/__init__.py:66-74). -/
def Interp.list (I : Interp α) (i : Nat) : Step α × Interp α × Iter α :=
  match I.pages[i]? with
  | some x => (.item x, I, .listing (i + 1))
  | none => (.stop, I, .finished)

/-- `next(it)` for an iterator made by `iter(interpreter)` (interpreter/__init__.py:66-74). -/
def Interp.next (I : Interp α) : Iter α → Step α × Interp α × Iter α
  | .fresh => if I.pages = [] then I.load I.file.1 0 else I.list 0
  | .listing i => I.list i
  | .loading rest num => I.load rest num
  | .finished => (.stop, I, .finished)

end Pdf
