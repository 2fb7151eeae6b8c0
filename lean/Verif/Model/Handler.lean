import Verif.Model.Security
import Verif.Model.Resolver
/-! Model of the construction of a security handler from the encryption dictionary (parser/PDFDocument/PDFSecurityHandler.py:18-46,
145-163, 196-207; parser/PDFDocument/__init__.py:111-125). `PDFEncryptionError` and `PDFPasswordIncorrect` are not imported where they are
raised: both are a `NameError`. -/

namespace Pdf

/-- What the Crypto and hashlib libraries provide (PDFSecurityHandler.py:1-4). -/
structure Crypto where
  md5 : Bytes → Bytes
  sha : Bytes → Bytes
  aes : BlockDec

/-- A handler: its method `decrypt` (PDFSecurityHandler.py:131-132, 173-180), with `attrs` for streams, and its permissions. -/
structure Cipher where
  decrypt : (objid genno : Int) → Bytes → (attrs : Option (List (Key × Obj))) → Except PyErr Bytes
  p : Int

/-- `is_extractable` (PDFSecurityHandler.py:54-55). -/
def Cipher.isExtractable (c : Cipher) : Bool := decide (Int.land c.p 16 ≠ 0)

/-- `param[k]` (PDFSecurityHandler.py:35). -/
def paramAt (param : List (Key × Obj)) (k : String) : Except PyErr Obj :=
  match dictGet param (nm k) with
  | some o => .ok o
  | none => .error .keyError

/-- The attributes set by `init_params` (PDFSecurityHandler.py:33-40); `none` is `''`, which `str_value` gives for something that is not a
string. -/
structure SecParams where
  r : Int
  p : Int
  o : Option Bytes
  u : Option Bytes
  length : Int

/-- `init_params` (PDFSecurityHandler.py:33-40). -/
def initParams (R : Resolver) (param : List (Key × Obj)) : Except PyErr SecParams := do
  let _ ← R.intValue ((dictGet param (nm "V")).getD (.int 0))
  let r ← R.intValue (← paramAt param "R")
  let p ← R.intValue (← paramAt param "P")
  let o ← R.strValue (← paramAt param "O")
  let u ← R.strValue (← paramAt param "U")
  let length ← R.intValue ((dictGet param (nm "Length")).getD (.int 40))
  .ok ⟨r, p, o, u, length⟩

/-- `self.docid[0]` as an argument of `hash.update` (PDFSecurityHandler.py:78). -/
def docid0 : List Obj → Except PyErr Bytes
  | [] => .error .indexError
  | .str s :: _ => .ok s
  | _ :: _ => .error .typeError

/-- `init_key` (PDFSecurityHandler.py:42-46, 72-88) with what can go wrong before: the password is not given (`None` has no `encode`), it is not
Latin-1, `O` is not a string, `P` is not a 32-bit number, there is no usable identifier. -/
def startKey (C : Crypto) (s : SecParams) (length : Int) (encryptMetadata : Bool) (docid : List Obj) (password : Option PyStr) : Except PyErr Bytes :=
  match password with
  | none => .error .attributeError
  | some pw => do
    let _ ← latin1 pw
    match s.o with
    | none => .error .typeError
    | some o => do
      let _ ← packP s.p
      let id0 ← docid0 docid
      Handler.initKey C.md5 ⟨s.r, s.p, o, s.u.getD [], length, id0, encryptMetadata⟩ pw

/-- The handler for the versions 1 and 2 (PDFSecurityHandler.py:18-46, 131-138). -/
def standardCipher (C : Crypto) (R : Resolver) (docid : List Obj) (param : List (Key × Obj)) (password : Option PyStr) : Except PyErr Cipher := do
  let s ← initParams R param
  if s.r = 2 ∨ s.r = 3 then do
    let key ← startKey C s s.length false docid password
    .ok ⟨fun i g data _ => decryptRc4 C.md5 key i g data, s.p⟩
  else .error .nameError

/-- `v['CFM']` (PDFSecurityHandler.py:156): `v` is a dictionary or a stream. -/
def cfmEntry : Obj → Except PyErr Obj
  | .dict d => paramAt d "CFM"
  | .stream d _ => paramAt d "CFM"
  | _ => .error .typeError

/-- `get_cfm` (PDFSecurityHandler.py:165-171, 209-213). -/
def getCfm (v5 : Bool) (name : Obj) : Option CryptMethod :=
  match v5, name with
  | false, .name n => if n = asc "V2" then some .v2 else if n = asc "AESV2" then some .aesV2 else none
  | true, .name n => if n = asc "AESV3" then some .aesV3 else none
  | _, _ => none

/-- The loop that fills `cfm` (PDFSecurityHandler.py:154-159). -/
def cryptFilters (v5 : Bool) : List (Key × Obj) → Except PyErr (List (Key × CryptMethod))
  | [] => .ok []
  | (k, v) :: rest => do
    match getCfm v5 (← cfmEntry v) with
    | none => .error .nameError
    | some f => do
      let l ← cryptFilters v5 rest
      .ok ((k, f) :: l)

/-- Python's `bool(x)` of the entry `EncryptMetadata` (PDFSecurityHandler.py:151): everything is true but `False`, `None`, zero and what is
empty. -/
def metadataFlag (param : List (Key × Obj)) : Bool :=
  match dictGet param (nm "EncryptMetadata") with
  | none => true
  | some .null => false
  | some (.bool b) => b
  | some (.int n) => n ≠ 0
  | some (.real m _) => m ≠ 0
  | some (.str s) => !s.isEmpty
  | some (.arr l) => !l.isEmpty
  | some (.dict d) => !d.isEmpty
  | some _ => true

/-- `init_params` of version 4 after that of the class before it (PDFSecurityHandler.py:145-163): the method of the filter `StrF` and
`encrypt_metadata`. Simplification: things that are no names are compared as objects. -/
def initFilters (v5 : Bool) (R : Resolver) (param : List (Key × Obj)) : Except PyErr (CryptMethod × Bool) := do
  let cf ← R.dictValue ((dictGet param (nm "CF")).getD .null)
  let stmf ← paramAt param "StmF"
  let strf ← paramAt param "StrF"
  if stmf ≠ strf then .error .nameError
  else do
    let cfm ← cryptFilters v5 cf
    let k ← strf.key
    if k = nm "Identity" then .ok (.identity, metadataFlag param)
    else match dictGet cfm k with
      | some m => .ok (m, metadataFlag param)
      | none => .error .nameError

/-- `literal_name(attrs.get('Type'))`, if there is one (PDFSecurityHandler.py:174-177). -/
def typeName (attrs : Option (List (Key × Obj))) : Option Bytes :=
  match attrs with
  | none => none
  | some d => match dictGet d (nm "Type") with
    | some (.name n) => some n
    | _ => none

/-- The handler for version 4 (PDFSecurityHandler.py:141-189). -/
def cipherV4 (C : Crypto) (R : Resolver) (docid : List Obj) (param : List (Key × Obj)) (password : Option PyStr) : Except PyErr Cipher := do
  let s ← initParams R param
  let (m, em) ← initFilters false R param
  if s.r = 4 then do
    let key ← startKey C s 128 em docid password
    .ok ⟨fun i g data attrs => decryptV4 C.md5 C.aes em m key i g data (typeName attrs), s.p⟩
  else .error .nameError

/-- `str.encode('utf-8')` of one character (PDFSecurityHandler.py:216); `none` for a surrogate, and for what is not a character. -/
def utf8Char (c : Nat) : Option Bytes :=
  if c < 0x80 then some [UInt8.ofNat c]
  else if c < 0x800 then some [UInt8.ofNat (0xc0 + c / 64), UInt8.ofNat (0x80 + c % 64)]
  else if 0xd800 ≤ c ∧ c < 0xe000 then none
  else if c < 0x10000 then some [UInt8.ofNat (0xe0 + c / 4096), UInt8.ofNat (0x80 + c / 64 % 64), UInt8.ofNat (0x80 + c % 64)]
  else if c < 0x110000 then
    some [UInt8.ofNat (0xf0 + c / 262144), UInt8.ofNat (0x80 + c / 4096 % 64), UInt8.ofNat (0x80 + c / 64 % 64), UInt8.ofNat (0x80 + c % 64)]
  else none

/-- `str.encode('utf-8')` (PDFSecurityHandler.py:216); `UnicodeEncodeError` is a `ValueError`. -/
def utf8Encode : PyStr → Except PyErr Bytes
  | [] => .ok []
  | c :: cs => match utf8Char c with
    | none => .error .valueError
    | some b => match utf8Encode cs with
      | .ok r => .ok (b ++ r)
      | .error e => .error e

/-- `init_key` of version 5 (PDFSecurityHandler.py:42-46, 215-231). Simplification: entries that are not strings are a `TypeError` even where they
are not used. -/
def startKey5 (C : Crypto) (o u oe ue : Option Bytes) (password : Option PyStr) : Except PyErr Bytes :=
  match password with
  | none => .error .attributeError
  | some pw => do
    let b ← utf8Encode pw
    match o, u, oe, ue with
    | some o, some u, some oe, some ue => do
      match ← Handler5.authenticate C.sha C.aes ⟨o, u, oe, ue⟩ b with
      | none => .error .nameError
      | some key => .ok key
    | _, _, _, _ => .error .typeError

/-- The handler for version 5 (PDFSecurityHandler.py:192-234). -/
def cipherV5 (C : Crypto) (R : Resolver) (param : List (Key × Obj)) (password : Option PyStr) : Except PyErr Cipher := do
  let s ← initParams R param
  let (m, em) ← initFilters true R param
  let oe ← R.strValue (← paramAt param "OE")
  let ue ← R.strValue (← paramAt param "UE")
  if s.r = 5 then do
    let key ← startKey5 C s.o s.u oe ue password
    .ok ⟨fun i g data attrs => decryptV4 C.md5 C.aes em m key i g data (typeName attrs), s.p⟩
  else .error .nameError

/-- `_initialize_password` (PDFDocument/__init__.py:111-125): the handler for the encryption dictionary `param`. -/
def makeCipher (C : Crypto) (R : Resolver) (docid : List Obj) (param : List (Key × Obj)) (password : Option PyStr) : Except PyErr Cipher := do
  if dictGet param (nm "Filter") ≠ some (.name (asc "Standard")) then .error .nameError
  else do
    let v ← R.intValue ((dictGet param (nm "V")).getD (.int 0))
    if v = 1 ∨ v = 2 then standardCipher C R docid param password
    else if v = 4 then cipherV4 C R docid param password
    else if v = 5 then cipherV5 C R param password
    else .error .nameError

end Pdf
