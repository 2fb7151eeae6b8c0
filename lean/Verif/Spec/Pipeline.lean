import Verif.Props.Chain
import Verif.Props.Recovery
import Verif.Props.Objstm
import Verif.Props.Pages
import Verif.Props.Content
import Verif.Spec.WellFormed
import Verif.Model.Pipeline
/-! What a PDF file says: its sections, its objects, its pages and their texts. -/

namespace Pdf.Spec

/-- The places of objects found by a scan of the file: the last one counts. -/
def scanned (es : List (Int × XPos)) (i : Int) : Except PyErr XPos :=
  match lastEntry i es with
  | some e => .ok e
  | none => .error .keyError

/-- The sections of a file in the order in which they are asked: those that the last `startxref` leads to, if there is one, up to a `Prev` that
leads out of the file; last the one made by a scan of the whole file. -/
inductive Sections (decode : List (Key × Obj) → Bytes → Except PyErr Bytes) (data : Bytes) : List Sec → Prop
  | intact {first sx n ds : Bytes} {pre mid post : List Bytes} {secs es q d} : eolFields data = first :: (pre ++ sx :: (mid ++ n :: post)) → Trims sx startxrefWord →
      (∀ f ∈ mid, Blank f) → Trims n ds → Num ds → (∀ f ∈ post, ¬ Trims f startxrefWord) → Chain decode data (some (.int (decimal ds))) secs →
      Region decode data 0 es q → ScanEnd data q d → Sections decode data (secs ++ [⟨scanned es, d⟩])
  | broken {first sx n ds : Bytes} {pre mid post : List Bytes} {secs es q d} : eolFields data = first :: (pre ++ sx :: (mid ++ n :: post)) → Trims sx startxrefWord →
      (∀ f ∈ mid, Blank f) → Trims n ds → Num ds → (∀ f ∈ post, ¬ Trims f startxrefWord) → BrokenChain decode data (some (.int (decimal ds))) secs →
      Region decode data 0 es q → ScanEnd data q d → Sections decode data (secs ++ [⟨scanned es, d⟩])
  | lost {es q d} : (∀ f ∈ (eolFields data).tail, ¬ Trims f startxrefWord) → Region decode data 0 es q → ScanEnd data q d →
      Sections decode data [⟨scanned es, d⟩]

/-- What stands at an offset of the file: an object `i g obj ... endobj`, or a stream, whose data end at the first `endstream`. -/
inductive ObjectAt (data : Bytes) (pos : Nat) (i : Int) : Obj → Prop
  | plain {g pre rest pts ts o} : data.drop pos = pre ++ rest → Text pos pts pre rest →
      pts.map Prod.snd = [.int i, .int g, .kw kwObj] ++ ts ++ [.kw kwEndobj] → Writes fileDialect ts o → ObjectAt data pos i o
  | stream {g pre eol body rest mid tail pts ets ts d} : data.drop pos = pre ++ (kwStream ++ (eol ++ (body ++ (kwEndstream ++ rest)))) →
      Text pos pts pre (kwStream ++ (eol ++ (body ++ (kwEndstream ++ rest)))) → pts.map Prod.snd = [.int i, .int g, .kw kwObj] ++ ts →
      Writes fileDialect ts (.dict d) → StreamEol eol (body ++ (kwEndstream ++ rest)) →
      (∀ j < body.length, ¬ kwEndstream <+: (body ++ (kwEndstream ++ rest)).drop j) → kwEndstream ++ rest = mid ++ tail →
      Text (pos + pre.length + kwStream.length + eol.length + body.length) ets mid tail → ets.map Prod.snd = [.kw kwEndstream, .kw kwEndobj] →
      ¬ Unfinished rest → ObjectAt data pos i (.stream d body)

/-- The object with number `i`: the newest section that knows it gives its offset, or its index in an object stream. -/
inductive Located (decode : List (Key × Obj) → Bytes → Except PyErr Bytes) (data : Bytes) (secs : List Sec) : Int → Obj → Prop
  | offset {i newer sec older gen o} {pos : Nat} : i ≠ 0 → secs = newer ++ sec :: older → (∀ y ∈ newer, y.pos i = .error .keyError) →
      sec.pos i = .ok (none, pos, gen) → ObjectAt data pos i o → Located decode data secs i o
  | packed {i newer sec older gen strm d raw text pts header os o} {k n : Nat} : i ≠ 0 → secs = newer ++ sec :: older →
      (∀ y ∈ newer, y.pos i = .error .keyError) → sec.pos i = .ok (some strm, k, gen) → Located decode data secs strm (.stream d raw) →
      decode d raw = .ok text → Text 0 pts text [] → WritesSeq objstmDialect (pts.map Prod.snd) (header ++ os) → (∀ i g, .ref i g ∉ header ++ os) →
      dictGet d nameN = some (.int n) → header.length = 2 * n → os[k]? = some o → Located decode data secs i o

/-- The objects of the file: each is located by the sections, none is just a reference; the sections know no others. -/
structure FileObjects (decode : List (Key × Obj) → Bytes → Except PyErr Bytes) (data : Bytes) (secs : List Sec) (objs : List (Int × Obj)) : Prop where
  located : ∀ i o, dictGet objs i = some o → Located decode data secs i o
  direct : ∀ i o, dictGet objs i = some o → ∀ j g, o ≠ .ref j g
  complete : ∀ i, dictGet objs i = none → ∀ sec ∈ secs, sec.pos i = .error .keyError

/-- Following references in a file with these objects; a reference to an object that does not exist is a reference to `null`, and there is no object
number 0. -/
def fileResolver (objs : List (Int × Obj)) : Resolver where
  resolve1
    | .ref i _ => if i = 0 then .error .assertion else .ok ((dictGet objs i).getD .null)
    | o => .ok o
  getobj i := if i = 0 then .error .assertion else match dictGet objs i with
    | some o => .ok o
    | none => .error .pdfObjectNotFound

/-- The content streams have the objects `os`: the data of the streams one after another are written content. -/
def ContentOf (R : Resolver) (getData : List (Key × Obj) → Bytes → Except PyErr Bytes) (streams os : List Obj) : Prop :=
  ∃ datas, datas ≠ [] ∧ List.Forall₂ (fun o b => ∃ d raw, R.resolve1 o = .ok (.stream d raw) ∧ getData d raw = .ok b) streams datas ∧ Uncut datas ∧
    Content datas.flatten os

/-- What content streams and fonts mean in a document whose references are followed by `R`. -/
structure Serves (S : Setup) (R : Resolver) (E : Env1) : Prop where
  resolver : E.R = R
  fonts : ∀ id spec f, E.getFont id spec = .ok f → ∃ k, buildFont (S.fontEnv R) k spec = .ok f
  content : ∀ streams os, E.content streams = (os, none) → ContentOf R (decodeStream R S.inflate none) streams os

/-- The page with the dictionaries `ds` (its own and those of its ancestors) shows the text `t`. -/
structure PageText (S : Setup) (R : Resolver) (ignoreBad : Bool) (ds : List Dict) (t : PyStr) : Prop where
  attributes : ∀ k o, pageAttr ds k = some o → ∃ v, R.resolve1 o = .ok v
  box : ∃ o a b c d, pageAttr ds (.name (asc "MediaBox")) = some o ∧ R.resolve1 o = .ok (.arr [a, b, c, d]) ∧ IsNumber a ∧ IsNumber b ∧ IsNumber c ∧ IsNumber d
  shows : ∃ E res contents c, Serves S R E ∧ R.resolve1 ((pageAttr ds (.name (asc "Resources"))).getD (.dict [])) = .ok (.dict res) ∧
    UsableResources E res ∧ (ds.head?.bind fun d => dictGet d (.name (asc "Contents"))) = some contents ∧ R.resolve1 contents = .ok c ∧
    (E.content (streamsOf c)).2 = none ∧
    WellFormed E ignoreBad res Pen.start (E.content (streamsOf c)).1 t

/-- The text file: a line with the number of the page before each text. -/
def textOf : (num : Nat) → List PyStr → PyStr
  | _, [] => []
  | num, t :: ts => pstr "========== [ page " ++ numText num ++ pstr " ] ==========\n" ++ t ++ pstr "\n" ++ textOf (num + 1) ts

/-- A document: the objects of the file, the catalog that the first trailer with `Root` names, and the page tree, whose pages are as `Is` says. -/
def DocumentOf {α : Type} (S : Setup) (data : Bytes) (Is : Resolver → List Dict → α → Prop) (pages : List α) : Prop :=
  ∃ secs objs before t after root catalog o T,
    Sections S.fileDecode data secs ∧ FileObjects S.fileDecode data secs objs ∧
    secs.map Sec.trailer = before ++ t :: after ∧ (∀ x ∈ before, dictGet x (nm "Root") = none) ∧ dictGet t (nm "Root") = some root ∧
    (∀ x ∈ before ++ [t], dictGet x (nm "Encrypt") = none) ∧
    (∀ x ∈ before ++ [t], ∀ v, dictGet x (nm "Info") = some v → ∃ w, (fileResolver objs).resolve1 v = .ok w) ∧
    (fileResolver objs).resolve1 root = .ok (.dict catalog) ∧ dictGet catalog (nm "Pages") = some o ∧ IsTree (fileResolver objs) o T ∧
    List.Forall₂ (fun leaf p => Is (fileResolver objs) leaf.2 p) (T.leaves [catalog]) pages

/-- A document whose pages show these texts. -/
def Document (S : Setup) (ignoreBad : Bool) (data : Bytes) (texts : List PyStr) : Prop :=
  DocumentOf S data (fun R ds t => PageText S R ignoreBad ds t) texts

end Pdf.Spec
