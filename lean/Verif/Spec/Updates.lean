import Verif.Spec.Write
/-! Incremental updates (ISO 32000, 7.5.6): changed objects, a table of them and a new trailer are added at the end of the file. -/

namespace Pdf.Spec
open Pdf (Bytes Tok Obj Key asc nm)

/-- An update: the objects that it changes or adds, those that it deletes, and its trailer without `Prev`. -/
structure Update where
  changes : List (Nat × Option Obj)
  trailer : List (Key × Obj)

/-- The objects of an update. -/
def changedObjs : List (Nat × Option Obj) → Bytes
  | [] => []
  | (i, some o) :: cs => writeObj i o ++ changedObjs cs
  | (_, none) :: cs => changedObjs cs

/-- The lines of its table, a subsection for every object; the first object is at offset `p`. -/
def changeLines : (p : Nat) → List (Nat × Option Obj) → List Bytes
  | _, [] => []
  | p, (i, some o) :: cs => (natDigits i ++ asc " 1\n") :: (padded p 9 ++ asc " 00000 n \n") :: changeLines (p + (writeObj i o).length) cs
  | p, (i, none) :: cs => (natDigits i ++ asc " 1\n") :: asc "0000000000 00001 f \n" :: changeLines p cs

/-- The trailer names the table before. -/
def Update.dict (u : Update) (prev : Nat) : List (Key × Obj) := u.trailer ++ [(nm "Prev", .int prev)]

/-- What an update adds to a file with `start` bytes, whose last table is at `prev`. -/
def writeUpdate (start prev : Nat) (u : Update) : Bytes :=
  changedObjs u.changes ++ (asc "xref\n" ++ ((changeLines start u.changes).flatten ++ writeTrailer (u.dict prev) (start + (changedObjs u.changes).length)))

/-- Any number of updates, the oldest first. -/
def writeUpdates : (start prev : Nat) → List Update → Bytes
  | _, _, [] => []
  | s, p, u :: us => writeUpdate s p u ++ writeUpdates (s + (writeUpdate s p u).length) (s + (changedObjs u.changes).length) us

/-- A file with its updates. -/
def writeUpdated (objs : List Obj) (trailer : List (Key × Obj)) (us : List Update) : Bytes :=
  writeFile objs trailer ++ writeUpdates (writeFile objs trailer).length (writeBody objs).length us

/-- What the update makes of object `i`, which was `old` before. -/
def Update.change (u : Update) (i : Int) (old : Option Obj) : Option Obj :=
  match u.changes.find? fun x => (x.1 : Int) = i with
  | some (_, new) => new
  | none => old

/-- Object `i` after all updates: the last update that mentions it counts. -/
def afterUpdates (objs : List Obj) (us : List Update) (i : Int) : Option Obj := us.foldl (fun old u => u.change i old) (dictGet (numbered 1 objs) i)

/-- The update deletes nothing. -/
def Update.Keeps (u : Update) : Prop := ∀ x ∈ u.changes, x.2 ≠ none

/-- The update without its deletions. -/
def Update.withoutDeletions (u : Update) : Update := { u with changes := u.changes.filter fun x => x.2.isSome }

/-- What can be written: each object is mentioned once, there is no object 0, and the trailer has no entries that lead elsewhere. -/
structure Update.Valid (u : Update) : Prop where
  objects : ∀ x ∈ u.changes, ∀ o, x.2 = some o → x.1 ≠ 0 ∧ Writable o
  once : (u.changes.map Prod.fst).Nodup
  trailerOk : WF (.dict u.trailer)
  noPrev : dictGet u.trailer (nm "Prev") = none
  noStm : dictGet u.trailer (nm "XRefStm") = none

/-- The update that replaces one object, given by its place in the list. -/
def edit (root : Obj) (e : Nat × Obj) : Update := ⟨[(e.1 + 1, some e.2)], [(nm "Root", root)]⟩

/-- The objects after some edits. -/
def edited (objs : List Obj) (es : List (Nat × Obj)) : List Obj := es.foldl (fun l e => l.set e.1 e.2) objs

end Pdf.Spec
