import Verif.Model.Bmp
import Verif.Model.Text
import Mathlib.Data.Int.Bitwise
/-! Model of the security handlers (parser/PDFDocument/PDFSecurityHandler.py).

`hashlib.md5`, `SHA256` and the AES block cipher are parameters. `ARC4` of the Crypto library is modelled by the published
algorithm. -/

namespace Pdf

/-! ### ARC4 -/

/-- The state of RC4: the permutation as a list of 256 bytes, and the two indices (`ARC4` of the Crypto library, used at
PDFSecurityHandler.py:60). -/
structure Rc4 where
  s : List UInt8
  i : UInt8 := 0
  j : UInt8 := 0

/-- Entry `k` of the permutation (`ARC4`, used at PDFSecurityHandler.py:60). -/
def Rc4.at (r : Rc4) (k : UInt8) : UInt8 := r.s.getD k.toNat 0

/-- Exchange entries `i` and `j` (`ARC4`, used at PDFSecurityHandler.py:60). -/
def Rc4.swap (r : Rc4) (i j : UInt8) : Rc4 := { r with s := (r.s.set i.toNat (r.at j)).set j.toNat (r.at i) }

/-- One step of the key schedule (`ARC4.new`, used at PDFSecurityHandler.py:60). -/
def rc4KeyStep (key : Bytes) (r : Rc4) (n : Nat) : Rc4 :=
  let i := UInt8.ofNat n
  let j := r.j + r.at i + key.getD (n % key.length) 0
  { r.swap i j with j := j }

/-- The key schedule (`ARC4.new`, used at PDFSecurityHandler.py:60). -/
def rc4Init (key : Bytes) : Rc4 :=
  { (List.range 256).foldl (rc4KeyStep key) { s := (List.range 256).map fun n => UInt8.ofNat n } with i := 0, j := 0 }

/-- The next byte of the key stream and the state afterwards (`encrypt` of `ARC4`, used at PDFSecurityHandler.py:60). -/
def Rc4.next (r : Rc4) : UInt8 × Rc4 :=
  let i := r.i + 1
  let j := r.j + r.at i
  let r' := { r.swap i j with i := i, j := j }
  (r'.at (r'.at i + r'.at j), r')

/-- `encrypt` and `decrypt` of an `ARC4` object, on its state (used at PDFSecurityHandler.py:60, 138). -/
def Rc4.crypt (r : Rc4) : Bytes → Bytes
  | [] => []
  | b :: bs => (b ^^^ r.next.1) :: r.next.2.crypt bs

/-- `ARC4.new(key).encrypt(data)`, which is also `ARC4.new(key).decrypt(data)` (used at PDFSecurityHandler.py:60, 65, 68, 123, 128,
138). The library (pycryptodome 3.8.2, setup.py:16) takes keys of 5 to 256 bytes. -/
def arc4 (key data : Bytes) : Except PyErr Bytes :=
  if 5 ≤ key.length ∧ key.length ≤ 256 then .ok ((rc4Init key).crypt data) else .error .valueError

/-! ### The standard handler -/

/-- `PASSWORD_PADDING` (PDFSecurityHandler.py:14-15). -/
def passwordPadding : Bytes :=
  [0x28, 0xbf, 0x4e, 0x5e, 0x4e, 0x75, 0x8a, 0x41, 0x64, 0x00, 0x4e, 0x56, 0xff, 0xfa, 0x01, 0x08,
   0x2e, 0x2e, 0x00, 0xb6, 0xd0, 0x68, 0x3e, 0x80, 0x2f, 0x0c, 0xa9, 0xfe, 0x64, 0x53, 0x69, 0x7a]

/-- The attributes set by `init_params` (PDFSecurityHandler.py:33-40), `docid[0]` and `encrypt_metadata`. -/
structure Handler where
  r : Int
  p : Int
  o : Bytes
  u : Bytes
  length : Int := 40
  docid0 : Bytes
  encryptMetadata : Bool := false

/-- `is_printable` (PDFSecurityHandler.py:48-49). `Int.land` is Python's `&`. -/
def Handler.isPrintable (h : Handler) : Bool := decide (Int.land h.p 4 ≠ 0)

/-- `is_modifiable` (PDFSecurityHandler.py:51-52). -/
def Handler.isModifiable (h : Handler) : Bool := decide (Int.land h.p 8 ≠ 0)

/-- `is_extractable` (PDFSecurityHandler.py:54-55). -/
def Handler.isExtractable (h : Handler) : Bool := decide (Int.land h.p 16 ≠ 0)

/-- `b''.join(int2byte(c ^ i) for c in iter(key))` (PDFSecurityHandler.py:67, 127). -/
def xorKey (key : Bytes) (i : Nat) : Bytes := key.map fun c => c ^^^ UInt8.ofNat i

/-- `for i in ...: result = ARC4.new(k).encrypt(result)` with the key `k` of step `i` (PDFSecurityHandler.py:66-68, 126-128). -/
def arc4Rounds (key : Bytes) : List Nat → Bytes → Except PyErr Bytes
  | [], data => .ok data
  | i :: is, data =>
    match arc4 (xorKey key i) data with
    | .error e => .error e
    | .ok d => arc4Rounds key is d

variable (md5 : Bytes → Bytes)

/-- `compute_u` (PDFSecurityHandler.py:57-70). -/
def Handler.computeU (h : Handler) (key : Bytes) : Except PyErr Bytes :=
  if h.r = 2 then arc4 key passwordPadding
  else
    match arc4 key (md5 (passwordPadding ++ h.docid0)) with
    | .error e => .error e
    | .ok result =>
      match arc4Rounds key ((List.range 19).map (· + 1)) result with
      | .error e => .error e
      | .ok result => .ok (result ++ result)

/-- `for _ in range(k): result = md5.md5(result[:n]).digest()` (PDFSecurityHandler.py:86-87). -/
def md5Rounds (n : Int) : Nat → Bytes → Bytes
  | 0, result => result
  | k + 1, result => md5Rounds n k (md5 (pySlice result 0 n))

/-- `struct.pack('<l', self.p)` (PDFSecurityHandler.py:77). -/
def packP (p : Int) : Except PyErr Bytes := packi p

/-- `compute_encryption_key` (PDFSecurityHandler.py:72-88). -/
def Handler.computeEncryptionKey (h : Handler) (password : Bytes) : Except PyErr Bytes :=
  match packP h.p with
  | .error e => .error e
  | .ok p =>
    let hashed := (password ++ passwordPadding).take 32 ++ h.o ++ p ++ h.docid0 ++
      (if 4 ≤ h.r ∧ h.encryptMetadata = false then [0xff, 0xff, 0xff, 0xff] else [])
    if 3 ≤ h.r then .ok (pySlice (md5Rounds md5 (h.length / 8) 50 (md5 hashed)) 0 (h.length / 8))
    else .ok ((md5 hashed).take 5)

/-- `verify_encryption_key` (PDFSecurityHandler.py:104-109). -/
def Handler.verifyEncryptionKey (h : Handler) (key : Bytes) : Except PyErr Bool :=
  match h.computeU md5 key with
  | .error e => .error e
  | .ok u => .ok (if h.r = 2 then decide (u = h.u) else decide (u.take 16 = h.u.take 16))

/-- `authenticate_user_password` (PDFSecurityHandler.py:97-102). -/
def Handler.authenticateUser (h : Handler) (password : Bytes) : Except PyErr (Option Bytes) :=
  match h.computeEncryptionKey md5 password with
  | .error e => .error e
  | .ok key =>
    match h.verifyEncryptionKey md5 key with
    | .error e => .error e
    | .ok true => .ok (some key)
    | .ok false => .ok none

/-- `for _ in range(k): hash = md5.md5(hash.digest())` (PDFSecurityHandler.py:116-117). -/
def md5Again : Nat → Bytes → Bytes
  | 0, d => d
  | k + 1, d => md5Again k (md5 d)

/-- The key in `authenticate_owner_password` (PDFSecurityHandler.py:113-121). -/
def Handler.ownerKey (h : Handler) (password : Bytes) : Bytes :=
  if 3 ≤ h.r then pySlice (md5Again md5 50 (md5 ((password ++ passwordPadding).take 32))) 0 (h.length / 8)
  else (md5 ((password ++ passwordPadding).take 32)).take 5

/-- `authenticate_owner_password` (PDFSecurityHandler.py:111-129). -/
def Handler.authenticateOwner (h : Handler) (password : Bytes) : Except PyErr (Option Bytes) :=
  match (if h.r = 2 then arc4 (h.ownerKey md5 password) h.o
    else arc4Rounds (h.ownerKey md5 password) (List.range 20).reverse h.o) with
  | .error e => .error e
  | .ok user => h.authenticateUser md5 user

/-- `password.encode("latin1")` (PDFSecurityHandler.py:91); `UnicodeEncodeError` is a `ValueError`. -/
def latin1 : PyStr → Except PyErr Bytes
  | [] => .ok []
  | c :: cs =>
    if c < 256 then
      match latin1 cs with
      | .error e => .error e
      | .ok r => .ok (UInt8.ofNat c :: r)
    else .error .valueError

/-- `authenticate` (PDFSecurityHandler.py:90-95). -/
def Handler.authenticate (h : Handler) (password : PyStr) : Except PyErr (Option Bytes) :=
  match latin1 password with
  | .error e => .error e
  | .ok pw =>
    match h.authenticateUser md5 pw with
    | .error e => .error e
    | .ok (some key) => .ok (some key)
    | .ok none => h.authenticateOwner md5 pw

/-- `init_key` (PDFSecurityHandler.py:42-46). `PDFPasswordIncorrect` is not imported there: `NameError`. -/
def Handler.initKey (h : Handler) (password : PyStr) : Except PyErr Bytes :=
  match h.authenticate md5 password with
  | .error e => .error e
  | .ok none => .error .nameError
  | .ok (some key) => .ok key

/-- The key of an object (PDFSecurityHandler.py:135-137, 186-188); `salt` is empty for RC4. -/
def objectKey (key : Bytes) (objid genno : Int) (salt : Bytes) : Except PyErr Bytes :=
  match packI objid, packI genno with
  | .ok a, .ok b =>
    let k := key ++ a.take 3 ++ b.take 2 ++ salt
    .ok ((md5 k).take (min k.length 16))
  | .error e, _ => .error e
  | _, .error e => .error e

/-- `decrypt_rc4` (PDFSecurityHandler.py:134-138). -/
def decryptRc4 (key : Bytes) (objid genno : Int) (data : Bytes) : Except PyErr Bytes :=
  match objectKey md5 key objid genno [] with
  | .error e => .error e
  | .ok k => arc4 k data

/-! ### AES (versions 4 and 5) -/

/-- A block cipher on blocks of 16 bytes: the decryption of one block under a key (`AES` of the Crypto library, used at
PDFSecurityHandler.py:189, 224, 230, 234). -/
abbrev BlockDec := Bytes → Bytes → Bytes

/-- CBC decryption of whole blocks (`AES.MODE_CBC`, PDFSecurityHandler.py:189). The library rejects data that are not whole blocks and
an initialization vector that is not 16 bytes long. -/
def cbcBlocks (dec : Bytes → Bytes) : (n : Nat) → (iv data : Bytes) → Bytes
  | 0, _, _ => []
  | n + 1, iv, data => List.zipWith (· ^^^ ·) (dec (data.take 16)) iv ++ cbcBlocks dec n (data.take 16) (data.drop 16)

/-- `AES.new(key, mode=AES.MODE_CBC, IV=iv).decrypt(data)` (PDFSecurityHandler.py:189, 224, 230, 234). -/
def aesCbc (D : BlockDec) (key iv data : Bytes) : Except PyErr Bytes :=
  if (key.length = 16 ∨ key.length = 24 ∨ key.length = 32) ∧ iv.length = 16 ∧ data.length % 16 = 0 then
    .ok (cbcBlocks (D key) (data.length / 16) iv data)
  else .error .valueError

/-- `decrypt_aes128` (PDFSecurityHandler.py:185-189). -/
def decryptAes128 (D : BlockDec) (key : Bytes) (objid genno : Int) (data : Bytes) : Except PyErr Bytes :=
  match objectKey md5 key objid genno [0x73, 0x41, 0x6c, 0x54] with
  | .error e => .error e
  | .ok k => aesCbc D k (data.take 16) (data.drop 16)

/-- `decrypt_aes256` (PDFSecurityHandler.py:233-234). -/
def decryptAes256 (D : BlockDec) (key : Bytes) (_objid _genno : Int) (data : Bytes) : Except PyErr Bytes :=
  aesCbc D key (data.take 16) (data.drop 16)

/-- The attributes of the handler of version 5 (PDFSecurityHandler.py:196-207). -/
structure Handler5 where
  o : Bytes
  u : Bytes
  oe : Bytes
  ue : Bytes

/-- `authenticate` of version 5, on the encoded password (PDFSecurityHandler.py:215-231). -/
def Handler5.authenticate (sha : Bytes → Bytes) (D : BlockDec) (h : Handler5) (utf8 : Bytes) : Except PyErr (Option Bytes) :=
  let password := utf8.take 127
  if sha (password ++ (h.o.drop 32).take 8 ++ h.u) = h.o.take 32 then
    (aesCbc D (sha (password ++ h.o.drop 40 ++ h.u)) (List.replicate 16 0) h.oe).map some
  else if sha (password ++ (h.u.drop 32).take 8) = h.u.take 32 then
    (aesCbc D (sha (password ++ h.u.drop 40)) (List.replicate 16 0) h.ue).map some
  else .ok none

/-- The crypt filter methods (PDFSecurityHandler.py:165-171, 209-213). -/
inductive CryptMethod where
  | identity
  | v2
  | aesV2
  | aesV3
deriving DecidableEq

/-- `cfm[name](objid, genno, data)` (PDFSecurityHandler.py:180). -/
def CryptMethod.run (D : BlockDec) (m : CryptMethod) (key : Bytes) (objid genno : Int) (data : Bytes) : Except PyErr Bytes :=
  match m with
  | .identity => .ok data
  | .v2 => decryptRc4 md5 key objid genno data
  | .aesV2 => decryptAes128 md5 D key objid genno data
  | .aesV3 => decryptAes256 D key objid genno data

/-- `decrypt` of version 4 (PDFSecurityHandler.py:173-180): `typ` is the name of the `Type` entry, when the attributes are given and have
one; `filter` is the method of the `StrF` filter. -/
def decryptV4 (D : BlockDec) (encryptMetadata : Bool) (filter : CryptMethod) (key : Bytes) (objid genno : Int) (data : Bytes)
    (typ : Option Bytes) : Except PyErr Bytes :=
  if encryptMetadata = false ∧ typ = some [77, 101, 116, 97, 100, 97, 116, 97] then .ok data
  else filter.run md5 D key objid genno data

end Pdf
