import Verif.Model.Fonts
import Verif.Model.ConvertFile
/-! The maps that are kept in files: `CMapDB` (parser/cmapdb/__init__.py:193-262). -/

namespace Pdf

/-- What a file holds (cmapdb/__init__.py:235): the attributes of the class that is made from it; some may be missing. -/
structure CmapModule where
  code2cid : Option (List (Nat × CTrie)) := none
  isVertical : Option Bool := none
  horizontal : Option CodeMap := none
  vertical : Option CodeMap := none

/-- What does not change: the directories (cmapdb/__init__.py:227-228, the variable `CMAP_PATH` and the package) and what `gzip`, `pickle.loads` and `type` make
of the bytes of a file (cmapdb/__init__.py:232-237). -/
structure CmapEnv where
  path : Option PyStr
  package : PyStr
  unpickle : Bytes → Except PyErr CmapModule

/-- `cmap_paths` (cmapdb/__init__.py:227-228). -/
def CmapEnv.dirs (E : CmapEnv) : List PyStr := [E.path.getD (pstr "/usr/share/pdfminer/"), pathJoin E.package (pstr "cmap")]

/-- `filename` (cmapdb/__init__.py:224-225). -/
def cmapFileName (name : PyStr) : PyStr := name.filter (fun c => c != 0) ++ pstr ".pickle.gz"

/-- The loop over the directories (cmapdb/__init__.py:229-239). -/
def CmapEnv.search (E : CmapEnv) (F : Files) (file : PyStr) : List PyStr → Except PyErr CmapModule
  | [] => .error .cmapNotFound
  | d :: ds => match F (pathJoin d file) with
    | some data => E.unpickle data
    | none => E.search F file ds

/-- `_load_data` (cmapdb/__init__.py:222-239). -/
def CmapEnv.loadData (E : CmapEnv) (F : Files) (name : PyStr) : Except PyErr CmapModule := E.search F (cmapFileName name) E.dirs

/-- `PyCMap(name, module)` (cmapdb/__init__.py:193-200). -/
def pyCmap (m : CmapModule) : Except PyErr CMapObj :=
  match m.code2cid, m.isVertical with
  | some t, some v => .ok (.table t v)
  | _, _ => .error .attributeError

/-- `[PyUnicodeMap(name, data, v) for v in (False, True)]` (cmapdb/__init__.py:205-213, 261). -/
def pyUnicodeMaps (m : CmapModule) : Except PyErr (CodeMap × CodeMap) :=
  match m.horizontal, m.vertical with
  | some h, some v => .ok (h, v)
  | _, _ => .error .attributeError

/-- The caches of the class (cmapdb/__init__.py:219-220). -/
structure CmapDb where
  cmaps : List (PyStr × CMapObj) := []
  umaps : List (PyStr × (CodeMap × CodeMap)) := []

/-- `get_cmap` (cmapdb/__init__.py:241-252): the caches afterwards and the map. -/
def CmapDb.getCmap (db : CmapDb) (E : CmapEnv) (F : Files) (name : PyStr) : CmapDb × Except PyErr CMapObj :=
  if name = pstr "Identity-H" then (db, .ok (.identity false))
  else if name = pstr "Identity-V" then (db, .ok (.identity true))
  else match dictGet db.cmaps name with
    | some m => (db, .ok m)
    | none => match E.loadData F name with
      | .error e => (db, .error e)
      | .ok data => match pyCmap data with
        | .error e => (db, .error e)
        | .ok m => ({ db with cmaps := dictSet db.cmaps name m }, .ok m)

/-- `umaps[vertical]` (cmapdb/__init__.py:257, 262). -/
def umapAt (maps : CodeMap × CodeMap) (vertical : Bool) : CodeMap := if vertical then maps.2 else maps.1

/-- `get_unicode_map` (cmapdb/__init__.py:255-262). -/
def CmapDb.getUnicodeMap (db : CmapDb) (E : CmapEnv) (F : Files) (name : PyStr) (vertical : Bool) : CmapDb × Except PyErr CodeMap :=
  match dictGet db.umaps name with
  | some maps => (db, .ok (umapAt maps vertical))
  | none => match E.loadData F (pstr "to-unicode-" ++ name) with
    | .error e => (db, .error e)
    | .ok data => match pyUnicodeMaps data with
      | .error e => (db, .error e)
      | .ok maps => ({ db with umaps := dictSet db.umaps name maps }, .ok (umapAt maps vertical))

end Pdf
