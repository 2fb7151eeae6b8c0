import Verif.Model.Security
import Mathlib.Logic.Function.Iterate
/-! Specification of the standard security handler from the side of the program that encrypts (ISO 32000-1, 7.6), for C53, C54 and
C73 to C75. `rc4` is the stream cipher; `md5` and the AES block cipher are parameters. -/

namespace Pdf.Spec

/-- The stream cipher RC4 (published algorithm, see the test vectors beside the theorems). -/
def rc4 (key data : Bytes) : Bytes := (rc4Init key).crypt data

/-- The padding string of ISO 32000-1, 7.6.3.3. -/
def padding : Bytes :=
  [0x28, 0xBF, 0x4E, 0x5E, 0x4E, 0x75, 0x8A, 0x41, 0x64, 0x00, 0x4E, 0x56, 0xFF, 0xFA, 0x01, 0x08, 0x2E, 0x2E, 0x00, 0xB6, 0xD0, 0x68,
    0x3E, 0x80, 0x2F, 0x0C, 0xA9, 0xFE, 0x64, 0x53, 0x69, 0x7A]

/-- A password truncated or pad32 to 32 bytes. -/
def pad32 (pw : Bytes) : Bytes := (pw ++ padding).take 32

/-- The four bytes of a 32-bit two's complement number, low-order byte first. -/
def int32 (p : Int) : Bytes :=
  let m := (p % 4294967296).toNat
  [UInt8.ofNat m, UInt8.ofNat (m / 256), UInt8.ofNat (m / 65536), UInt8.ofNat (m / 16777216)]

/-- RC4 with the keys obtained by the exclusive or of the key with each of the given numbers, one after the other. -/
def rc4Steps (key : Bytes) (steps : List UInt8) (data : Bytes) : Bytes :=
  steps.foldl (fun d i => rc4 (key.map (· ^^^ i)) d) data

/-- The numbers 0 to 19. -/
def steps20 : List UInt8 := [0, 1, 2, 3, 4, 5, 6, 7, 8, 9, 10, 11, 12, 13, 14, 15, 16, 17, 18, 19]

/-- Algorithm 2: the file key for a user password; `n` is its length in bytes, from revision 3. `encryptsMeta` tells whether metadata are
encrypted: if they are not, revision 4 hashes four more bytes. -/
def fileKey (md5 : Bytes → Bytes) (r n : Nat) (encryptsMeta : Bool) (user O : Bytes) (P : Int) (ID : Bytes) : Bytes :=
  let d := md5 (pad32 user ++ O ++ int32 P ++ ID ++ if r = 4 ∧ encryptsMeta = false then [0xFF, 0xFF, 0xFF, 0xFF] else [])
  if r = 2 then d.take 5 else ((fun x => md5 (x.take n))^[50] d).take n

/-- Algorithm 3, steps 1 to 4: the key made from the owner password. -/
def ownerKey (md5 : Bytes → Bytes) (r n : Nat) (owner : Bytes) : Bytes :=
  if r = 2 then (md5 (pad32 owner)).take 5 else (md5^[50] (md5 (pad32 owner))).take n

/-- Algorithm 3: the O entry. -/
def entryO (md5 : Bytes → Bytes) (r n : Nat) (owner user : Bytes) : Bytes :=
  if r = 2 then rc4 (ownerKey md5 r n owner) (pad32 user) else rc4Steps (ownerKey md5 r n owner) steps20 (pad32 user)

/-- Algorithm 7: the (padded) user password, if `owner` is the owner password. -/
def recoveredUser (md5 : Bytes → Bytes) (r n : Nat) (owner O : Bytes) : Bytes :=
  if r = 2 then rc4 (ownerKey md5 r n owner) O else rc4Steps (ownerKey md5 r n owner) steps20.reverse O

/-- Algorithms 4 and 5: the U entry; from revision 3 it ends with 16 bytes of arbitrary padding. -/
def entryU (md5 : Bytes → Bytes) (r : Nat) (key ID filler : Bytes) : Bytes :=
  if r = 2 then rc4 key padding else rc4Steps key steps20 (md5 (padding ++ ID)) ++ filler

/-- Algorithm 6: a U entry is compared with the stored one in full in revision 2 and in the first 16 bytes from revision 3. -/
def sameU (r : Nat) (stored U : Bytes) : Bool := if r = 2 then decide (stored = U) else decide (stored.take 16 = U.take 16)

/-- Algorithm 1: the key of an object, from the file key, the low-order 3 bytes of the object number and the low-order 2 bytes of the
generation number. -/
def objectKey (md5 : Bytes → Bytes) (key : Bytes) (objid genno : Nat) (salt : Bytes) : Bytes :=
  (md5 (key ++ [UInt8.ofNat objid, UInt8.ofNat (objid / 256), UInt8.ofNat (objid / 65536), UInt8.ofNat genno, UInt8.ofNat (genno / 256)]
    ++ salt)).take (min (key.length + 5 + salt.length) 16)

/-- Bit `n` of the permissions, counted from 1 at the low-order end of the 32-bit two's complement form. -/
def permission (p : Int) (n : Nat) : Bool := ((p % 4294967296).toNat).testBit (n - 1)

/-- Exclusive or of two blocks. -/
def xorBlock (a b : Bytes) : Bytes := List.zipWith (· ^^^ ·) a b

/-- Encryption of blocks in CBC mode. -/
def cbcEncrypt (E : Bytes → Bytes) : (iv : Bytes) → List Bytes → Bytes
  | _, [] => []
  | iv, b :: bs => E (xorBlock b iv) ++ cbcEncrypt E (E (xorBlock b iv)) bs

/-- `E` encrypts blocks of 16 bytes under every key and `D` decrypts them. -/
structure BlockCipher (E D : Bytes → Bytes → Bytes) : Prop where
  len : ∀ k b, b.length = 16 → (E k b).length = 16
  inv : ∀ k b, b.length = 16 → D k (E k b) = b

/-- The padding of RFC 2898: 1 to 16 bytes that tell their own number. -/
def pkcs (data : Bytes) : Bytes := data ++ List.replicate (16 - data.length % 16) (UInt8.ofNat (16 - data.length % 16))

/-- The first `n` blocks of 16 bytes. -/
def blocks16 : (n : Nat) → Bytes → List Bytes
  | 0, _ => []
  | n + 1, d => d.take 16 :: blocks16 n (d.drop 16)

/-- Encryption of a string or stream: the initialization vector, then the padded data in CBC mode. -/
def aesEncrypt (E : Bytes → Bytes) (iv data : Bytes) : Bytes := iv ++ cbcEncrypt E iv (blocks16 ((pkcs data).length / 16) (pkcs data))

/-- The entries U, UE, O and OE of version 5, from the file key, the two passwords and the four salts. -/
def version5 (sha : Bytes → Bytes) (E : Bytes → Bytes → Bytes) (key user owner uv uk ov ok : Bytes) : Handler5 :=
  let u := sha (user ++ uv) ++ uv ++ uk
  let zero := List.replicate 16 0
  { o := sha (owner ++ ov ++ u) ++ ov ++ ok, u := u,
    oe := cbcEncrypt (E (sha (owner ++ ok ++ u))) zero (blocks16 2 key),
    ue := cbcEncrypt (E (sha (user ++ uk))) zero (blocks16 2 key) }

end Pdf.Spec
