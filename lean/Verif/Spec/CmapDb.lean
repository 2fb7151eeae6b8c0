import Verif.Model.CmapDb
import Verif.Spec.SaveImage
/-! Specification for C106: the maps that are kept in files. -/

namespace Pdf.Spec

/-- What happens in a program: it asks for a map, or somebody changes the files. -/
inductive DbCall where
  | cmap (name : PyStr)
  | umap (name : PyStr) (vertical : Bool)
  | change (F : Files)

/-- What it is told. -/
inductive DbAnswer where
  | cmap (r : Except PyErr CMapObj)
  | umap (r : Except PyErr CodeMap)
  | changed

/-- The answers to a sequence of calls (cmapdb/__init__.py:241-262). -/
def dbRun (E : CmapEnv) : CmapDb → Files → List DbCall → List DbAnswer
  | _, _, [] => []
  | db, F, .cmap n :: cs => .cmap (db.getCmap E F n).2 :: dbRun E (db.getCmap E F n).1 F cs
  | db, F, .umap n v :: cs => .umap (db.getUnicodeMap E F n v).2 :: dbRun E (db.getUnicodeMap E F n v).1 F cs
  | db, _, .change F :: cs => .changed :: dbRun E db F cs

/-- The contents of the first directory that has a file. -/
inductive FirstFile (F : Files) (file : PyStr) : List PyStr → Option Bytes → Prop
  | none : FirstFile F file [] .none
  | here {d ds path data} : InDir d file path → F path = some data → FirstFile F file (d :: ds) (some data)
  | next {d ds path r} : InDir d file path → F path = .none → FirstFile F file ds r → FirstFile F file (d :: ds) r

/-- The directories: the one in `CMAP_PATH` or its default, then `cmap` in the package. -/
def CmapDirs (E : CmapEnv) (ds : List PyStr) : Prop :=
  ∃ d1 d2, ds = [d1, d2] ∧ (E.path = some d1 ∨ E.path = none ∧ d1 = pstr "/usr/share/pdfminer/") ∧ InDir E.package (pstr "cmap") d2

/-- The module in the file `<name>.pickle.gz`, as it is now. -/
inductive ModuleOf (E : CmapEnv) (F : Files) (name : PyStr) : Except PyErr CmapModule → Prop
  | found {ds data} : CmapDirs E ds → FirstFile F (name ++ pstr ".pickle.gz") ds (some data) → ModuleOf E F name (E.unpickle data)
  | missing {ds} : CmapDirs E ds → FirstFile F (name ++ pstr ".pickle.gz") ds none → ModuleOf E F name (.error .cmapNotFound)

/-- The map that the files hold now for a name. -/
inductive CmapIn (E : CmapEnv) (F : Files) (name : PyStr) : Except PyErr CMapObj → Prop
  | table {m t v} : ModuleOf E F name (.ok m) → m.code2cid = some t → m.isVertical = some v → CmapIn E F name (.ok (.table t v))
  | other {m} : ModuleOf E F name (.ok m) → m.code2cid = none ∨ m.isVertical = none → CmapIn E F name (.error .attributeError)
  | error {e} : ModuleOf E F name (.error e) → CmapIn E F name (.error e)

/-- The two unicode maps that the files hold now for a name. -/
inductive UmapsIn (E : CmapEnv) (F : Files) (name : PyStr) : Except PyErr (CodeMap × CodeMap) → Prop
  | maps {m h v} : ModuleOf E F (pstr "to-unicode-" ++ name) (.ok m) → m.horizontal = some h → m.vertical = some v → UmapsIn E F name (.ok (h, v))
  | other {m} : ModuleOf E F (pstr "to-unicode-" ++ name) (.ok m) → m.horizontal = none ∨ m.vertical = none → UmapsIn E F name (.error .attributeError)
  | error {e} : ModuleOf E F (pstr "to-unicode-" ++ name) (.error e) → UmapsIn E F name (.error e)

/-- What is remembered of each name. -/
structure DbMemory where
  cmap : PyStr → Option CMapObj
  umap : PyStr → Option (CodeMap × CodeMap)

/-- Nothing is remembered. -/
def DbMemory.empty : DbMemory := ⟨fun _ => none, fun _ => none⟩

/-- Remember a map. -/
def DbMemory.addCmap (M : DbMemory) (n : PyStr) (m : CMapObj) : DbMemory := { M with cmap := fun k => if k = n then some m else M.cmap k }
/-- Remember two unicode maps. -/
def DbMemory.addUmap (M : DbMemory) (n : PyStr) (m : CodeMap × CodeMap) : DbMemory := { M with umap := fun k => if k = n then some m else M.umap k }

/-- The answer for one direction. -/
def oneWay (vertical : Bool) : Except PyErr (CodeMap × CodeMap) → Except PyErr CodeMap
  | .ok (h, v) => .ok (if vertical then v else h)
  | .error e => .error e

/-- The answers as promised: a map is what the files held at the first time it was found, and is remembered. -/
inductive DbAnswers (E : CmapEnv) : DbMemory → Files → List DbCall → List DbAnswer → Prop
  | nil {M F} : DbAnswers E M F [] []
  | change {M F F' cs as} : DbAnswers E M F' cs as → DbAnswers E M F (.change F' :: cs) (.changed :: as)
  | horizontal {M F cs as} : DbAnswers E M F cs as → DbAnswers E M F (.cmap (pstr "Identity-H") :: cs) (.cmap (.ok (.identity false)) :: as)
  | vertical {M F cs as} : DbAnswers E M F cs as → DbAnswers E M F (.cmap (pstr "Identity-V") :: cs) (.cmap (.ok (.identity true)) :: as)
  | known {M F n m cs as} : n ≠ pstr "Identity-H" → n ≠ pstr "Identity-V" → M.cmap n = some m → DbAnswers E M F cs as →
      DbAnswers E M F (.cmap n :: cs) (.cmap (.ok m) :: as)
  | found {M F n m cs as} : n ≠ pstr "Identity-H" → n ≠ pstr "Identity-V" → M.cmap n = none → CmapIn E F n (.ok m) → DbAnswers E (M.addCmap n m) F cs as →
      DbAnswers E M F (.cmap n :: cs) (.cmap (.ok m) :: as)
  | failed {M F n e cs as} : n ≠ pstr "Identity-H" → n ≠ pstr "Identity-V" → M.cmap n = none → CmapIn E F n (.error e) → DbAnswers E M F cs as →
      DbAnswers E M F (.cmap n :: cs) (.cmap (.error e) :: as)
  | knownU {M F n v m cs as} : M.umap n = some m → DbAnswers E M F cs as → DbAnswers E M F (.umap n v :: cs) (.umap (oneWay v (.ok m)) :: as)
  | foundU {M F n v m cs as} : M.umap n = none → UmapsIn E F n (.ok m) → DbAnswers E (M.addUmap n m) F cs as →
      DbAnswers E M F (.umap n v :: cs) (.umap (oneWay v (.ok m)) :: as)
  | failedU {M F n v e cs as} : M.umap n = none → UmapsIn E F n (.error e) → DbAnswers E M F cs as →
      DbAnswers E M F (.umap n v :: cs) (.umap (.error e) :: as)

/-- A name of a map as the standards have them: not empty, without slashes and NUL characters. -/
def PlainName (n : PyStr) : Prop := n ≠ [] ∧ 0x2f ∉ n ∧ 0 ∉ n

/-- All names in a sequence of calls are plain. -/
def PlainCalls (cs : List DbCall) : Prop :=
  ∀ c ∈ cs, match c with
    | .cmap n => PlainName n
    | .umap n _ => PlainName n
    | .change _ => True

end Pdf.Spec
