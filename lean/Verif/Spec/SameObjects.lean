import Verif.Spec.Pipeline
import Verif.Spec.EncryptedFile
/-! Files as stores of objects: which objects and which catalogue a file has, whatever its sections are and however its objects are stored. -/

namespace Pdf.Spec

/-- A file that is not encrypted has the objects `objs`, and the first trailer with `Root` names the catalogue. -/
def PlainFile (S : Setup) (data : Bytes) (objs : List (Int × Obj)) (catalog : List (Key × Obj)) : Prop :=
  ∃ secs before t after root, Sections S.fileDecode data secs ∧ FileObjects S.fileDecode data secs objs ∧
    secs.map Sec.trailer = before ++ t :: after ∧ (∀ x ∈ before, dictGet x (nm "Root") = none) ∧ dictGet t (nm "Root") = some root ∧
    (∀ x ∈ before ++ [t], dictGet x (nm "Encrypt") = none) ∧
    (∀ x ∈ before ++ [t], ∀ v, dictGet x (nm "Info") = some v → ∃ w, (fileResolver objs).resolve1 v = .ok w) ∧
    (fileResolver objs).resolve1 root = .ok (.dict catalog)

/-- An encrypted file, opened with the password `pw`, has the objects `objs` and this catalogue; its permissions are `P`. -/
def LockedFile (S : Setup) (E : Bytes → Bytes → Bytes) (pw : PyStr) (data : Bytes) (P : Int) (objs : List (Int × Obj)) (catalog : List (Key × Obj)) : Prop :=
  ∃ secs before t after enc param idv ids L root,
    Sections S.fileDecode data secs ∧ secs.map Sec.trailer = before ++ t :: after ∧
    (∀ x ∈ before, dictGet x (nm "Root") = none ∧ dictGet x (nm "Encrypt") = none ∧ dictGet x (nm "Info") = none) ∧
    dictGet t (nm "Encrypt") = some enc ∧ PlainValue S.fileDecode data secs enc (.dict param) ∧
    dictGet t (nm "ID") = some idv ∧ PlainValue S.fileDecode data secs idv (.arr ids) ∧ Unlocks S.crypto E param ids pw L P ∧
    LockedObjects S.crypto.md5 E S.fileDecode L data secs objs ∧
    dictGet t (nm "Root") = some root ∧ (∀ v, dictGet t (nm "Info") = some v → ∃ w, (fileResolver objs).resolve1 v = .ok w) ∧
    (fileResolver objs).resolve1 root = .ok (.dict catalog)

/-- With these options the program can read the file: it is not encrypted, or the password opens it and, if the program asks, the extraction of text is
permitted. -/
inductive Readable (S : Setup) (E : Bytes → Bytes → Bytes) (opts : Options) (data : Bytes) (objs : List (Int × Obj)) (catalog : List (Key × Obj)) : Prop
  | plain : PlainFile S data objs catalog → Readable S E opts data objs catalog
  | locked {pw P} : opts.password = some pw → LockedFile S E pw data P objs catalog → (opts.checkExtractable = false ∨ permission P 5 = true) →
      Readable S E opts data objs catalog

/-- The catalogue has a page tree with a page. Nothing is said about what the pages are like. -/
def HasPage (objs : List (Int × Obj)) (catalog : List (Key × Obj)) : Prop :=
  ∃ o T, dictGet catalog (nm "Pages") = some o ∧ IsTree (fileResolver objs) o T ∧ T.leaves [catalog] ≠ []

/-- The two calls ask for the same pages and treat bad characters the same way. They may differ in passwords, caching and the check of permissions. -/
def SameRequest (a b : Options) : Prop := a.pagenos = b.pagenos ∧ a.maxpages = b.maxpages ∧ a.ignoreBad = b.ignoreBad

end Pdf.Spec
