import Verif.Spec.EncryptedFile
import Verif.Spec.TextFile
/-! A writer of encrypted PDF files: RC4 with keys of 40 to 128 bits (ISO 32000-1, 7.6, revisions 2 and 3). -/

namespace Pdf.Spec
open Pdf

mutual
/-- Every string of the object is replaced. -/
def mapStrings (f : Bytes → Bytes) : Obj → Obj
  | .str s => .str (f s)
  | .arr l => .arr (mapStringsList f l)
  | .dict d => .dict (mapStringsItems f d)
  | o => o
/-- See `mapStrings`. -/
def mapStringsList (f : Bytes → Bytes) : List Obj → List Obj
  | [] => []
  | o :: os => mapStrings f o :: mapStringsList f os
/-- See `mapStrings`. -/
def mapStringsItems (f : Bytes → Bytes) : List (Key × Obj) → List (Key × Obj)
  | [] => []
  | (k, o) :: d => (k, mapStrings f o) :: mapStringsItems f d
end

/-- The object with number `i` as it is stored: strings and the data of streams are encrypted with the key of the object. The dictionaries of streams are
stored as they are (meant for dictionaries without strings, as those of the text files are). -/
def sealObj (md5 : Bytes → Bytes) (key : Bytes) (i : Nat) : Obj → Obj
  | .stream d body => .stream d (rc4 (objectKey md5 key i 0 []) body)
  | o => mapStrings (rc4 (objectKey md5 key i 0 [])) o

/-- The objects from number `i` on. -/
def sealObjs (md5 : Bytes → Bytes) (key : Bytes) : (i : Nat) → List Obj → List Obj
  | _, [] => []
  | i, o :: os => sealObj md5 key i o :: sealObjs md5 key (i + 1) os

/-- What an author chooses: the revision, the size of the key in bytes, the passwords, the permissions, the identifier of the file and the filler of `U`. -/
structure Protection where
  r : Nat
  n : Nat
  user : Bytes
  owner : Bytes
  P : Int
  id0 : Bytes
  filler : Bytes

/-- The entry `O`. -/
def Protection.entryO (p : Protection) (md5 : Bytes → Bytes) : Bytes := Spec.entryO md5 p.r p.n p.owner p.user

/-- The key of the file. -/
def Protection.key (p : Protection) (md5 : Bytes → Bytes) : Bytes := fileKey md5 p.r p.n false p.user (p.entryO md5) p.P p.id0

/-- The encryption dictionary. -/
def Protection.dict (p : Protection) (md5 : Bytes → Bytes) : List (Key × Obj) :=
  [(nm "Filter", .name (asc "Standard")), (nm "V", .int (if p.r = 2 then 1 else 2)), (nm "R", .int p.r), (nm "Length", .int (8 * p.n)), (nm "P", .int p.P),
   (nm "O", .str (p.entryO md5)), (nm "U", .str (entryU md5 p.r (p.key md5) p.id0 p.filler))]

/-- The protections there are. -/
structure Protection.Valid (p : Protection) : Prop where
  revision : p.r = 2 ∨ p.r = 3
  size : 5 ≤ p.n ∧ p.n ≤ 16
  range : -2147483648 ≤ p.P ∧ p.P < 2147483648

/-- The password opens the document: it is the user password, or the owner password (unless that one is also accepted as a user password of another key). -/
def Protection.Opens (p : Protection) (md5 : Bytes → Bytes) (pw : PyStr) : Prop := OpensWith md5 p.r p.n false p.id0 p.user p.owner p.filler (p.entryO md5) p.P pw

/-- The trailer. -/
def Protection.trailer (p : Protection) (md5 : Bytes → Bytes) (size : Nat) (root : Obj) : List (Key × Obj) :=
  [(nm "Size", .int size), (nm "Root", root), (nm "Encrypt", .dict (p.dict md5)), (nm "ID", .arr [.str p.id0, .str p.id0])]

/-- The encrypted file. -/
def writeLocked (md5 : Bytes → Bytes) (p : Protection) (objs : List Obj) (root : Obj) : Bytes :=
  writeFile (sealObjs md5 (p.key md5) 1 objs) (p.trailer md5 (objs.length + 1) root)

/-- The objects that can be written encrypted: see `Writable`; streams have their length in the dictionary, and the encrypted data do not contain `endstream`
either. -/
def Sealable (md5 : Bytes → Bytes) (key : Bytes) (i : Nat) : Obj → Prop
  | .stream d body => WF (.dict d) ∧ dictGet d (nm "Type") ≠ some (.name (asc "ObjStm")) ∧ dictGet d (nm "Length") = some (.int body.length) ∧
      ¬ asc "endstream" <:+: rc4 (objectKey md5 key i 0 []) body
  | o => Writable o

end Pdf.Spec
