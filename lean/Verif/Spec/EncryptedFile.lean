import Verif.Spec.Pipeline
import Verif.Props.Encrypted
import Verif.Props.Security
/-! Encrypted files (ISO 32000-1, 7.6): the encryption dictionary, the passwords that open it, and the objects as they are stored. -/

namespace Pdf.Spec

/-- How the strings and streams of a document are encrypted: the method, the file key and whether metadata are encrypted. -/
structure Lock where
  method : CryptMethod
  key : Bytes
  encryptsMeta : Bool

/-- What is stored for data that are read back as `read`. With AES the padding is read back too (see C74). `E` is the block cipher. -/
inductive Stored (md5 : Bytes → Bytes) (E : Bytes → Bytes → Bytes) (key : Bytes) (i g : Nat) : CryptMethod → (stored read : Bytes) → Prop
  | identity {data} : Stored md5 E key i g .identity data data
  | rc4 {data} : Stored md5 E key i g .v2 (rc4 (objectKey md5 key i g []) data) data
  | aes128 {iv data} : iv.length = 16 → key.length = 16 → Stored md5 E key i g .aesV2 (aesEncrypt (E (objectKey md5 key i g (ascii "sAlT"))) iv data) (pkcs data)
  | aes256 {iv data} : iv.length = 16 → key.length = 32 → Stored md5 E key i g .aesV3 (aesEncrypt (E key) iv data) (pkcs data)

/-- A string in the object with number `i` and generation `g`. -/
def StoredString (md5 : Bytes → Bytes) (E : Bytes → Bytes → Bytes) (L : Lock) (i g : Int) (stored read : Bytes) : Prop :=
  ∃ n m : Nat, i = n ∧ g = m ∧ n < 4294967296 ∧ m < 4294967296 ∧ Stored md5 E L.key n m L.method stored read

/-- The data of a stream with dictionary `d`: metadata may be stored as they are. -/
def StoredStream (md5 : Bytes → Bytes) (E : Bytes → Bytes → Bytes) (L : Lock) (i g : Int) (d : List (Key × Obj)) (stored read : Bytes) : Prop :=
  (L.encryptsMeta = false ∧ dictGet d (nm "Type") = some (.name (asc "Metadata")) ∧ stored = read) ∨
    ((L.encryptsMeta = true ∨ dictGet d (nm "Type") ≠ some (.name (asc "Metadata"))) ∧ StoredString md5 E L i g stored read)

section
variable (md5 : Bytes → Bytes) (E : Bytes → Bytes → Bytes) (decode : List (Key × Obj) → Bytes → Except PyErr Bytes) (L : Lock) (data : Bytes) (secs : List Sec)

/-- `Hidden i gen o`: the object with number `i` and generation `gen` is `o`, with its strings decrypted; if it is a stream, `o` has its data as
stored. The newest section that knows the object gives its place. The length of a stream is given by `Length`, directly or by reference. Objects in an
object stream are encrypted with it, not each by itself. -/
inductive Hidden : Int → Int → Obj → Prop
  | plain {i gen newer sec older g pre rest pts ts o o'} {pos : Nat} : i ≠ 0 → secs = newer ++ sec :: older → (∀ y ∈ newer, y.pos i = .error .keyError) →
      sec.pos i = .ok (none, pos, gen) → data.drop pos = pre ++ rest → Text pos pts pre rest →
      pts.map Prod.snd = [.int i, .int g, .kw kwObj] ++ ts ++ [.kw kwEndobj] → Writes fileDialect ts o → Decrypted (StoredString md5 E L i gen) o o' → Hidden i gen o'
  | stream {i gen newer sec older g pre eol payload gap rest mid tail pts ets ts d} {pos : Nat} : i ≠ 0 → secs = newer ++ sec :: older → (∀ y ∈ newer, y.pos i = .error .keyError) →
      sec.pos i = .ok (none, pos, gen) → data.drop pos = pre ++ (kwStream ++ (eol ++ (payload ++ gap ++ (kwEndstream ++ rest)))) →
      Text pos pts pre (kwStream ++ (eol ++ (payload ++ gap ++ (kwEndstream ++ rest)))) → pts.map Prod.snd = [.int i, .int g, .kw kwObj] ++ ts →
      Writes fileDialect ts (.dict d) → StreamEol eol (payload ++ gap ++ (kwEndstream ++ rest)) → dictGet d nameLength = some (.int payload.length) →
      (∀ j < gap.length, ¬ kwEndstream <+: (gap ++ (kwEndstream ++ rest)).drop j) → kwEndstream ++ rest = mid ++ tail →
      Text (pos + pre.length + kwStream.length + eol.length + (payload ++ gap).length) ets mid tail → ets.map Prod.snd = [.kw kwEndstream, .kw kwEndobj] →
      ¬ Unfinished rest → Hidden i gen (.stream d payload)
  | streamRef {i gen newer sec older g pre eol payload gap rest mid tail pts ets ts d j j' j''} {pos : Nat} : i ≠ 0 → secs = newer ++ sec :: older → (∀ y ∈ newer, y.pos i = .error .keyError) →
      sec.pos i = .ok (none, pos, gen) → data.drop pos = pre ++ (kwStream ++ (eol ++ (payload ++ gap ++ (kwEndstream ++ rest)))) →
      Text pos pts pre (kwStream ++ (eol ++ (payload ++ gap ++ (kwEndstream ++ rest)))) → pts.map Prod.snd = [.int i, .int g, .kw kwObj] ++ ts →
      Writes fileDialect ts (.dict d) → StreamEol eol (payload ++ gap ++ (kwEndstream ++ rest)) → dictGet d nameLength = some (.ref j j') → Hidden j j'' (.int payload.length) →
      (∀ j < gap.length, ¬ kwEndstream <+: (gap ++ (kwEndstream ++ rest)).drop j) → kwEndstream ++ rest = mid ++ tail →
      Text (pos + pre.length + kwStream.length + eol.length + (payload ++ gap).length) ets mid tail → ets.map Prod.snd = [.kw kwEndstream, .kw kwEndobj] →
      ¬ Unfinished rest → Hidden i gen (.stream d payload)
  | packed {i newer sec older gen strm g d raw read text pts header os o} {k n : Nat} : i ≠ 0 → secs = newer ++ sec :: older →
      (∀ y ∈ newer, y.pos i = .error .keyError) → sec.pos i = .ok (some strm, k, gen) → Hidden strm g (.stream d raw) → StoredStream md5 E L strm g d raw read →
      decode d read = .ok text → Text 0 pts text [] → WritesSeq objstmDialect (pts.map Prod.snd) (header ++ os) → (∀ i g, .ref i g ∉ header ++ os) →
      dictGet d nameN = some (.int n) → header.length = 2 * n → os[k]? = some o → Hidden i gen o

/-- What an object is once the data of a stream are decrypted. -/
inductive Unsealed (i g : Int) : Obj → Obj → Prop
  | other {o} : (∀ d raw, o ≠ .stream d raw) → Unsealed i g o o
  | stream {d raw read} : StoredStream md5 E L i g d raw read → Unsealed i g (.stream d raw) (.stream d read)

/-- The objects of the file, decrypted. -/
structure LockedObjects (objs : List (Int × Obj)) : Prop where
  located : ∀ i o, dictGet objs i = some o → i ≠ 0 ∧ ∃ gen o0, Hidden md5 E decode L data secs i gen o0 ∧ Unsealed md5 E L i gen o0 o
  direct : ∀ i o, dictGet objs i = some o → ∀ j g, o ≠ .ref j g
  complete : ∀ i, dictGet objs i = none → ∀ sec ∈ secs, sec.pos i = .error .keyError

end

/-- A value in the trailer that is not encrypted: given directly or as an object of the file. -/
inductive PlainValue (decode : List (Key × Obj) → Bytes → Except PyErr Bytes) (data : Bytes) (secs : List Sec) : Obj → Obj → Prop
  | direct {o} : (∀ i g, o ≠ .ref i g) → PlainValue decode data secs o o
  | ref {i g o} : (∀ i g, o ≠ .ref i g) → Located decode data secs i o → PlainValue decode data secs (.ref i g) o

/-- The entries of an encryption dictionary that the versions 1, 2 and 4 have in common, for a key of `n` bytes: `user` and `owner` are the passwords. -/
structure PasswordEntries (md5 : Bytes → Bytes) (param : List (Key × Obj)) (r n : Nat) (em : Bool) (id0 user owner filler O : Bytes) (P : Int) : Prop where
  filter : dictGet param (nm "Filter") = some (.name (asc "Standard"))
  revision : dictGet param (nm "R") = some (.int r)
  permissions : dictGet param (nm "P") = some (.int P)
  range : -2147483648 ≤ P ∧ P < 2147483648
  ownerEntry : dictGet param (nm "O") = some (.str O)
  owner : O = entryO md5 r n owner user
  user : dictGet param (nm "U") = some (.str (entryU md5 r (fileKey md5 r n em user O P id0) id0 filler))
  size : 5 ≤ n ∧ n ≤ 16

/-- The password is the user password, or the owner password (unless it is also accepted as a user password). -/
def OpensWith (md5 : Bytes → Bytes) (r n : Nat) (em : Bool) (id0 user owner filler O : Bytes) (P : Int) (pw : PyStr) : Prop :=
  (∀ c ∈ pw, c < 256) ∧ (pw.map (fun c => UInt8.ofNat c) = user ∨ (pw.map (fun c => UInt8.ofNat c) = owner ∧
    sameU r (entryU md5 r (fileKey md5 r n em user O P id0) id0 filler) (entryU md5 r (fileKey md5 r n em owner O P id0) id0 []) = false))

/-- The filters of version 4 and 5: `StmF` and `StrF` name the same one. -/
structure FilterEntries (param : List (Key × Obj)) (methods : List (Bytes × CryptMethod)) (method : CryptMethod) (em : Bool) : Prop where
  filters : ∃ (f : Bytes) (cf : List (Key × Obj)), dictGet param (nm "StmF") = some (.name f) ∧ dictGet param (nm "StrF") = some (.name f) ∧
    dictGet param (nm "CF") = some (.dict cf) ∧
    (∀ e ∈ cf, ∃ d m, e.2 = .dict d ∧ dictGet d (nm "CFM") = some (.name m) ∧ ∃ x ∈ methods, x.1 = m) ∧
    ((f = asc "Identity" ∧ method = .identity) ∨
      (f ≠ asc "Identity" ∧ ∃ d m, dictGet cf (.name f) = some (.dict d) ∧ dictGet d (nm "CFM") = some (.name m) ∧ (m, method) ∈ methods))
  metadata : (dictGet param (nm "EncryptMetadata") = none ∧ em = true) ∨ dictGet param (nm "EncryptMetadata") = some (.bool em)

/-- `Utf8 b s`: the bytes `b` are the UTF-8 form of `s` (RFC 3629). -/
inductive Utf8 : Bytes → PyStr → Prop
  | nil : Utf8 [] []
  | one {c r s} : c < 0x80 → Utf8 r s → Utf8 (UInt8.ofNat c :: r) (c :: s)
  | two {x y r s} : y < 64 → 0x80 ≤ x * 64 + y → x * 64 + y < 0x800 → Utf8 r s → Utf8 (UInt8.ofNat (0xC0 + x) :: UInt8.ofNat (0x80 + y) :: r) ((x * 64 + y) :: s)
  | three {x y z c r s} : c = (x * 64 + y) * 64 + z → y < 64 → z < 64 → 0x800 ≤ c → c < 0x10000 → (c < 0xD800 ∨ 0xE000 ≤ c) → Utf8 r s →
      Utf8 (UInt8.ofNat (0xE0 + x) :: UInt8.ofNat (0x80 + y) :: UInt8.ofNat (0x80 + z) :: r) (c :: s)
  | four {x y z w c r s} : c = ((x * 64 + y) * 64 + z) * 64 + w → y < 64 → z < 64 → w < 64 → 0x10000 ≤ c → c < 0x110000 → Utf8 r s →
      Utf8 (UInt8.ofNat (0xF0 + x) :: UInt8.ofNat (0x80 + y) :: UInt8.ofNat (0x80 + z) :: UInt8.ofNat (0x80 + w) :: r) (c :: s)

/-- `Unlocks param ids pw L P`: a document with the encryption dictionary `param` and the identifiers `ids` is opened by the password `pw`, is
encrypted as `L` says and has the permissions `P`. -/
inductive Unlocks (C : Crypto) (E : Bytes → Bytes → Bytes) (param : List (Key × Obj)) : (ids : List Obj) → (pw : PyStr) → Lock → (P : Int) → Prop
  | rc4 {r n id0 more user owner filler O P pw} {v : Int} : (v = 1 ∨ v = 2) → (r = 2 ∨ r = 3) → dictGet param (nm "V") = some (.int v) →
      PasswordEntries C.md5 param r n false id0 user owner filler O P →
      (dictGet param (nm "Length") = some (.int (8 * n)) ∨ (dictGet param (nm "Length") = none ∧ n = 5)) →
      OpensWith C.md5 r n false id0 user owner filler O P pw →
      Unlocks C E param (.str id0 :: more) pw ⟨.v2, fileKey C.md5 r n false user O P id0, true⟩ P
  | v4 {id0 more user owner filler O P pw method em} : dictGet param (nm "V") = some (.int 4) → PasswordEntries C.md5 param 4 16 em id0 user owner filler O P →
      FilterEntries param [(asc "V2", .v2), (asc "AESV2", .aesV2)] method em → (∀ o, dictGet param (nm "Length") = some o → ∀ i g, o ≠ .ref i g) →
      OpensWith C.md5 4 16 em id0 user owner filler O P pw →
      Unlocks C E param (.str id0 :: more) pw ⟨method, fileKey C.md5 4 16 em user O P id0, em⟩ P
  | v5 {ids P pw b method em key user owner uv uk ov ok} : dictGet param (nm "V") = some (.int 5) →
      dictGet param (nm "Filter") = some (.name (asc "Standard")) → dictGet param (nm "R") = some (.int 5) → dictGet param (nm "P") = some (.int P) →
      key.length = 32 → uv.length = 8 → ov.length = 8 →
      dictGet param (nm "O") = some (.str (version5 C.sha E key (user.take 127) (owner.take 127) uv uk ov ok).o) →
      dictGet param (nm "U") = some (.str (version5 C.sha E key (user.take 127) (owner.take 127) uv uk ov ok).u) →
      dictGet param (nm "OE") = some (.str (version5 C.sha E key (user.take 127) (owner.take 127) uv uk ov ok).oe) →
      dictGet param (nm "UE") = some (.str (version5 C.sha E key (user.take 127) (owner.take 127) uv uk ov ok).ue) →
      FilterEntries param [(asc "AESV3", .aesV3)] method em → (∀ o, dictGet param (nm "Length") = some o → ∀ i g, o ≠ .ref i g) →
      Utf8 b pw →
      (b = owner ∨ (b = user ∧ C.sha (user.take 127 ++ ov ++ (version5 C.sha E key (user.take 127) (owner.take 127) uv uk ov ok).u) ≠
        C.sha (owner.take 127 ++ ov ++ (version5 C.sha E key (user.take 127) (owner.take 127) uv uk ov ok).u))) →
      Unlocks C E param ids pw ⟨method, key, em⟩ P

/-- The password opens the document neither as a user password nor as an owner password (ISO 32000-1, algorithms 6 and 7). -/
def RefusedBy (md5 : Bytes → Bytes) (r n : Nat) (em : Bool) (id0 user filler O : Bytes) (P : Int) (pw : PyStr) : Prop :=
  (∀ c ∈ pw, c < 256) ∧ ∀ tried ∈ [pw.map (fun c => UInt8.ofNat c), recoveredUser md5 r n (pw.map fun c => UInt8.ofNat c) O],
    sameU r (entryU md5 r (fileKey md5 r n em user O P id0) id0 filler) (entryU md5 r (fileKey md5 r n em tried O P id0) id0 []) = false

/-- `Refuses param ids pw`: a document with the encryption dictionary `param` and the identifiers `ids` is not opened by the password `pw`. -/
inductive Refuses (C : Crypto) (E : Bytes → Bytes → Bytes) (param : List (Key × Obj)) : (ids : List Obj) → (pw : PyStr) → Prop
  | rc4 {r n id0 more user owner filler O P pw} {v : Int} : (v = 1 ∨ v = 2) → (r = 2 ∨ r = 3) → dictGet param (nm "V") = some (.int v) →
      PasswordEntries C.md5 param r n false id0 user owner filler O P →
      (dictGet param (nm "Length") = some (.int (8 * n)) ∨ (dictGet param (nm "Length") = none ∧ n = 5)) →
      RefusedBy C.md5 r n false id0 user filler O P pw → Refuses C E param (.str id0 :: more) pw
  | v4 {id0 more user owner filler O P pw method em} : dictGet param (nm "V") = some (.int 4) → PasswordEntries C.md5 param 4 16 em id0 user owner filler O P →
      FilterEntries param [(asc "V2", .v2), (asc "AESV2", .aesV2)] method em → (∀ o, dictGet param (nm "Length") = some o → ∀ i g, o ≠ .ref i g) →
      RefusedBy C.md5 4 16 em id0 user filler O P pw → Refuses C E param (.str id0 :: more) pw
  | v5 {ids P pw b method em} {key user owner uv uk ov ok : Bytes} : dictGet param (nm "V") = some (.int 5) →
      dictGet param (nm "Filter") = some (.name (asc "Standard")) → dictGet param (nm "R") = some (.int 5) → dictGet param (nm "P") = some (.int P) →
      key.length = 32 → uv.length = 8 → ov.length = 8 →
      dictGet param (nm "O") = some (.str (version5 C.sha E key (user.take 127) (owner.take 127) uv uk ov ok).o) →
      dictGet param (nm "U") = some (.str (version5 C.sha E key (user.take 127) (owner.take 127) uv uk ov ok).u) →
      dictGet param (nm "OE") = some (.str (version5 C.sha E key (user.take 127) (owner.take 127) uv uk ov ok).oe) →
      dictGet param (nm "UE") = some (.str (version5 C.sha E key (user.take 127) (owner.take 127) uv uk ov ok).ue) →
      FilterEntries param [(asc "AESV3", .aesV3)] method em → (∀ o, dictGet param (nm "Length") = some o → ∀ i g, o ≠ .ref i g) →
      Utf8 b pw → C.sha (b.take 127 ++ uv) ≠ C.sha (user.take 127 ++ uv) →
      C.sha (b.take 127 ++ ov ++ (version5 C.sha E key (user.take 127) (owner.take 127) uv uk ov ok).u) ≠
        C.sha (owner.take 127 ++ ov ++ (version5 C.sha E key (user.take 127) (owner.take 127) uv uk ov ok).u) → Refuses C E param ids pw

/-- A file whose newest trailer with `Root` or `Encrypt` has the encryption dictionary `param` and the identifiers `ids`. -/
def LockedWith (decode : List (Key × Obj) → Bytes → Except PyErr Bytes) (data : Bytes) (param : List (Key × Obj)) (ids : List Obj) : Prop :=
  ∃ secs before t after enc idv, Sections decode data secs ∧ secs.map Sec.trailer = before ++ t :: after ∧
    (∀ x ∈ before, dictGet x (nm "Root") = none ∧ dictGet x (nm "Encrypt") = none ∧ dictGet x (nm "Info") = none) ∧
    dictGet t (nm "Encrypt") = some enc ∧ PlainValue decode data secs enc (.dict param) ∧ dictGet t (nm "ID") = some idv ∧ PlainValue decode data secs idv (.arr ids)

/-- An encrypted document: as `DocumentOf`, but the newest trailer with `Root` also has the encryption dictionary, and the objects are stored encrypted. -/
def LockedDocumentOf {α : Type} (S : Setup) (E : Bytes → Bytes → Bytes) (pw : PyStr) (data : Bytes) (P : Int) (Is : Resolver → List Dict → α → Prop) (pages : List α) : Prop :=
  ∃ secs objs before t after enc param idv ids L root catalog o T,
    Sections S.fileDecode data secs ∧ secs.map Sec.trailer = before ++ t :: after ∧
    (∀ x ∈ before, dictGet x (nm "Root") = none ∧ dictGet x (nm "Encrypt") = none ∧ dictGet x (nm "Info") = none) ∧
    dictGet t (nm "Encrypt") = some enc ∧ PlainValue S.fileDecode data secs enc (.dict param) ∧
    dictGet t (nm "ID") = some idv ∧ PlainValue S.fileDecode data secs idv (.arr ids) ∧ Unlocks S.crypto E param ids pw L P ∧
    LockedObjects S.crypto.md5 E S.fileDecode L data secs objs ∧
    dictGet t (nm "Root") = some root ∧ (∀ v, dictGet t (nm "Info") = some v → ∃ w, (fileResolver objs).resolve1 v = .ok w) ∧
    (fileResolver objs).resolve1 root = .ok (.dict catalog) ∧ dictGet catalog (nm "Pages") = some o ∧ IsTree (fileResolver objs) o T ∧
    List.Forall₂ (fun leaf p => Is (fileResolver objs) leaf.2 p) (T.leaves [catalog]) pages

/-- An encrypted document whose pages show these texts. -/
def LockedDocument (S : Setup) (E : Bytes → Bytes → Bytes) (ignoreBad : Bool) (pw : PyStr) (data : Bytes) (texts : List PyStr) (P : Int) : Prop :=
  LockedDocumentOf S E pw data P (fun R ds t => PageText S R ignoreBad ds t) texts

end Pdf.Spec
