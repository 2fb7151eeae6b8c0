import Verif.Spec.Security
import Verif.Spec.Text
import Verif.Props.XrefStream
import Mathlib.Tactic.Linarith
/-! Properties C53 (RC4), C54 (permission bits), C73 (passwords), C74 (AES) and C75 (version 5 passwords). -/

namespace Pdf

/-! ### RC4 -/

theorem xor_cancel (a b : UInt8) : (a ^^^ b) ^^^ b = a := by
  rw [UInt8.xor_assoc, UInt8.xor_self, UInt8.xor_zero]

theorem crypt_crypt (d : Bytes) (r : Rc4) : r.crypt (r.crypt d) = d := by
  induction d generalizing r with
  | nil => rfl
  | cons b bs ih => simp only [Rc4.crypt, xor_cancel, ih]

theorem crypt_length (d : Bytes) (r : Rc4) : (r.crypt d).length = d.length := by
  induction d generalizing r with
  | nil => rfl
  | cons b bs ih => simp only [Rc4.crypt, List.length_cons, ih]

/-- **C53.** RC4 is an involution that preserves the length, for every key and message. -/
theorem rc4_involution (key data : Bytes) :
    Spec.rc4 key (Spec.rc4 key data) = data ∧ (Spec.rc4 key data).length = data.length :=
  ⟨crypt_crypt _ _, crypt_length _ _⟩

/-- **C53.** Distinct messages stay distinct. -/
theorem rc4_injective (key a b : Bytes) (h : Spec.rc4 key a = Spec.rc4 key b) : a = b := by
  rw [← (rc4_involution key a).1, h, (rc4_involution key b).1]

theorem arc4_ok (key data : Bytes) (h : 5 ≤ key.length ∧ key.length ≤ 256) : arc4 key data = .ok (Spec.rc4 key data) := by
  unfold arc4; rw [if_pos h]; rfl

/-- A published test vector of RC4. -/
example : Spec.rc4 [0x4b, 0x65, 0x79] [0x50, 0x6c, 0x61, 0x69, 0x6e, 0x74, 0x65, 0x78, 0x74] =
    [0xBB, 0xF3, 0x16, 0xE8, 0xD9, 0x40, 0xAF, 0x0A, 0xD3] := by decide +kernel

theorem packI_nat (n : Nat) (h : n < 4294967296) :
    packI n = .ok [UInt8.ofNat n, UInt8.ofNat (n / 256), UInt8.ofNat (n / 65536), UInt8.ofNat (n / 16777216)] := by
  unfold packI
  rw [if_pos (by omega), Int.toNat_natCast]
  simp only [leBytes, Nat.div_div_eq_div_mul]
  have e : ∀ m, UInt8.ofNat (m % 256) = UInt8.ofNat m := fun m => by
    apply UInt8.toNat_inj.1; simp
  simp only [e]

theorem objectKey_of (md5 : Bytes → Bytes) (key : Bytes) (objid genno : Int) (a0 a1 a2 a3 b0 b1 b2 b3 : UInt8)
    (ho : packI objid = .ok [a0, a1, a2, a3]) (hg : packI genno = .ok [b0, b1, b2, b3]) (salt : Bytes) :
    objectKey md5 key objid genno salt =
      .ok ((md5 (key ++ [a0, a1, a2, b0, b1] ++ salt)).take (min (key.length + 5 + salt.length) 16)) := by
  unfold objectKey
  rw [ho, hg]
  simp only [List.take_succ_cons, List.take_zero, List.append_assoc, List.cons_append, List.nil_append, List.length_append,
    List.length_cons]
  rw [show key.length + (salt.length + 1 + 1 + 1 + 1 + 1) = key.length + 5 + salt.length by omega]

theorem objectKey_ok (md5 : Bytes → Bytes) (key : Bytes) (objid genno : Nat) (ho : objid < 4294967296) (hg : genno < 4294967296)
    (salt : Bytes) : objectKey md5 key objid genno salt = .ok (Spec.objectKey md5 key objid genno salt) :=
  objectKey_of md5 key objid genno _ _ _ _ _ _ _ _ (packI_nat objid ho) (packI_nat genno hg) salt

theorem decryptRc4_of (md5 : Bytes → Bytes) (key : Bytes) (objid genno : Int) (k data : Bytes)
    (h : objectKey md5 key objid genno [] = .ok k) : decryptRc4 md5 key objid genno data = arc4 k data := by
  unfold decryptRc4; rw [h]

/-- **C53.** The RC4 handler returns the plaintext of what was encrypted with the key of the object (algorithm 1 of ISO 32000-1), for
every file key, object and message; encrypting again is decrypting. -/
theorem decrypt_rc4_encrypted (md5 : Bytes → Bytes) (hm : ∀ x, (md5 x).length = 16) (key : Bytes) (objid genno : Nat)
    (ho : objid < 4294967296) (hg : genno < 4294967296) (data : Bytes) :
    decryptRc4 md5 key objid genno (Spec.rc4 (Spec.objectKey md5 key objid genno []) data) = .ok data := by
  have hl : (Spec.objectKey md5 key objid genno []).length = min (key.length + 5) 16 := by
    unfold Spec.objectKey; rw [List.length_take, hm]; simp
  rw [decryptRc4_of md5 key objid genno _ _ (objectKey_ok md5 key objid genno ho hg []), arc4_ok _ _ (by rw [hl]; omega), (rc4_involution _ _).1]

example : ∃ c, decryptRc4 (fun x => (x ++ List.replicate 16 7).take 16) [1, 2, 3, 4, 5] 12 0 c = .ok [104, 105] := by
  exact ⟨_, decrypt_rc4_encrypted _ (by intro x; simp) [1, 2, 3, 4, 5] 12 0 (by norm_num) (by norm_num) [104, 105]⟩

/-! ### Permissions -/

theorem land_bit (p : Int) (k : Nat) : Int.land p ((2 ^ k : Nat) : Int) ≠ 0 ↔ p.testBit k = true := by
  cases p with
  | ofNat m =>
    show ((Nat.land m (2 ^ k) : Nat) : Int) ≠ 0 ↔ Nat.testBit m k = true
    rw [Int.natCast_ne_zero]
    show (m &&& 2 ^ k) ≠ 0 ↔ _
    rw [Nat.and_two_pow]
    cases m.testBit k <;> simp
  | negSucc m =>
    show ((Nat.ldiff (2 ^ k) m : Nat) : Int) ≠ 0 ↔ (!Nat.testBit m k) = true
    rw [Int.natCast_ne_zero]
    constructor
    · intro h
      by_contra hc
      apply h
      apply Nat.eq_of_testBit_eq
      intro i
      rw [Nat.testBit_ldiff, Nat.testBit_two_pow, Nat.zero_testBit]
      by_cases e : k = i
      · subst e; simp_all
      · simp [e]
    · intro h e
      have := congrArg (fun x => Nat.testBit x k) e
      simp only [Nat.testBit_ldiff, Nat.testBit_two_pow, Nat.zero_testBit] at this
      simp_all

theorem testBit_mod (p : Int) (k : Nat) (hk : k < 32) : p.testBit k = ((p % 4294967296).toNat).testBit k := by
  cases p with
  | ofNat m =>
    show Nat.testBit m k = _
    have : ((Int.ofNat m) % 4294967296).toNat = m % 2 ^ 32 := by
      have e : (Int.ofNat m % 4294967296) = ((m % 4294967296 : Nat) : Int) := by
        rw [Int.natCast_mod]; rfl
      rw [e, Int.toNat_natCast]
      norm_num
    rw [this, Nat.testBit_mod_two_pow]
    simp [hk]
  | negSucc m =>
    show (!Nat.testBit m k) = _
    have : ((Int.negSucc m) % 4294967296).toNat = 2 ^ 32 - (m % 2 ^ 32 + 1) := by
      have e : (Int.negSucc m % 4294967296) = ((2 ^ 32 - (m % 2 ^ 32 + 1) : Nat) : Int) := by
        rw [Int.negSucc_eq]
        have : m % 2 ^ 32 < 2 ^ 32 := Nat.mod_lt _ (by norm_num)
        norm_num at this ⊢
        omega
      rw [e, Int.toNat_natCast]
    rw [this, Nat.testBit_two_pow_sub_succ (Nat.mod_lt _ (by norm_num)), Nat.testBit_mod_two_pow]
    simp [hk]

/-- **C54.** For every value of `/P` the three permissions are the bits 3, 4 and 5 (counted from 1) of its 32-bit two's complement
form. -/
theorem permissions (h : Handler) :
    h.isPrintable = Spec.permission h.p 3 ∧ h.isModifiable = Spec.permission h.p 4 ∧ h.isExtractable = Spec.permission h.p 5 := by
  have key : ∀ k, k < 32 → decide (Int.land h.p ((2 ^ k : Nat) : Int) ≠ 0) = ((h.p % 4294967296).toNat).testBit k := by
    intro k hk
    rw [← testBit_mod h.p k hk]
    rw [Bool.eq_iff_iff, decide_eq_true_iff, land_bit]
  exact ⟨key 2 (by norm_num), key 3 (by norm_num), key 4 (by norm_num)⟩

example : (⟨2, -44, [], [], 40, [], false⟩ : Handler).isPrintable = true ∧ (⟨2, -44, [], [], 40, [], false⟩ : Handler).isModifiable = false ∧
    (⟨2, -44, [], [], 40, [], false⟩ : Handler).isExtractable = true := by
  refine ⟨(permissions _).1.trans ?_, (permissions _).2.1.trans ?_, (permissions _).2.2.trans ?_⟩ <;> decide +kernel

/-! ### Passwords of revisions 2, 3 and 4 -/

theorem packP_ok (p : Int) (h : -2147483648 ≤ p ∧ p < 2147483648) : packP p = .ok (Spec.int32 p) := by
  unfold packP packi Spec.int32
  rw [if_pos h]
  have e : ∀ m, UInt8.ofNat (m % 256) = UInt8.ofNat m := fun m => by
    apply UInt8.toNat_inj.1; simp
  simp only [leBytes, Nat.div_div_eq_div_mul, e]

theorem padding_eq : passwordPadding = Spec.padding := by decide

theorem pad32_length (pw : Bytes) : (Spec.pad32 pw).length = 32 := by
  unfold Spec.pad32
  rw [List.length_take, List.length_append]
  have : Spec.padding.length = 32 := by decide
  omega

theorem pad32_pad32 (pw : Bytes) : Spec.pad32 (Spec.pad32 pw) = Spec.pad32 pw := by
  have := pad32_length pw
  rw [Spec.pad32, List.take_append_of_le_length (by omega), List.take_of_length_le (by omega)]

theorem pySlice_take (l : Bytes) (n : Nat) : pySlice l 0 (n : Int) = l.take n := by
  have := pySlice_nat l 0 n
  simpa using this

theorem md5Rounds_eq (md5 : Bytes → Bytes) (n k : Nat) (d : Bytes) : md5Rounds md5 (n : Int) k d = (fun x => md5 (x.take n))^[k] d := by
  induction k generalizing d with
  | zero => rfl
  | succ k ih => rw [md5Rounds, ih, pySlice_take, Function.iterate_succ_apply]

theorem md5Again_eq (md5 : Bytes → Bytes) (k : Nat) (d : Bytes) : md5Again md5 k d = md5^[k] d := by
  induction k generalizing d with
  | zero => rfl
  | succ k ih => rw [md5Again, ih, Function.iterate_succ_apply]

theorem iterate_length (f : Bytes → Bytes) (hf : ∀ x, (f x).length = 16) (k : Nat) (d : Bytes) (hd : d.length = 16) :
    (f^[k] d).length = 16 := by
  cases k with
  | zero => exact hd
  | succ k => rw [Function.iterate_succ_apply']; exact hf _

/-- The parameters of a handler of version 1, 2 or 4 (revision 2, 3 or 4) for a key of `n` bytes. -/
structure Spec.Standard (h : Handler) (r n : Nat) : Prop where
  rev : h.r = r
  r23 : r = 2 ∨ r = 3 ∨ r = 4
  len : h.length = 8 * n
  n5 : 5 ≤ n
  n16 : n ≤ 16
  p32 : -2147483648 ≤ h.p ∧ h.p < 2147483648

theorem key_of (md5 : Bytes → Bytes) (h : Handler) (pw pb : Bytes) (n : Nat) (hp : packP h.p = .ok pb) (hr : 3 ≤ h.r) (hl : h.length = 8 * n) :
    h.computeEncryptionKey md5 pw =
      .ok (((fun x => md5 (x.take n))^[50] (md5 ((pw ++ passwordPadding).take 32 ++ h.o ++ pb ++ h.docid0 ++
        if 4 ≤ h.r ∧ h.encryptMetadata = false then [0xff, 0xff, 0xff, 0xff] else []))).take n) := by
  unfold Handler.computeEncryptionKey
  have e : h.length / 8 = (n : Int) := by omega
  rw [hp, e]
  dsimp only
  rw [if_pos hr, md5Rounds_eq, pySlice_take]

theorem key_of2 (md5 : Bytes → Bytes) (h : Handler) (pw pb : Bytes) (hp : packP h.p = .ok pb) (hr : h.r = 2) :
    h.computeEncryptionKey md5 pw = .ok ((md5 ((pw ++ passwordPadding).take 32 ++ h.o ++ pb ++ h.docid0 ++
      if 4 ≤ h.r ∧ h.encryptMetadata = false then [0xff, 0xff, 0xff, 0xff] else [])).take 5) := by
  unfold Handler.computeEncryptionKey
  rw [hp]
  dsimp only
  rw [if_neg (show ¬(3 : Int) ≤ h.r by omega)]

theorem computeKey (md5 : Bytes → Bytes) {h : Handler} {r n : Nat} (hs : Spec.Standard h r n) (pw : Bytes) :
    h.computeEncryptionKey md5 pw = .ok (Spec.fileKey md5 r n h.encryptMetadata pw h.o h.p h.docid0) := by
  have hp := packP_ok h.p hs.p32
  have hr := hs.rev
  have e : (if 4 ≤ h.r ∧ h.encryptMetadata = false then ([0xff, 0xff, 0xff, 0xff] : Bytes) else []) =
      (if r = 4 ∧ h.encryptMetadata = false then [0xff, 0xff, 0xff, 0xff] else []) := by
    have := hs.r23
    by_cases h4 : r = 4
    · simp only [show (4 : Int) ≤ h.r by omega, h4, true_and]
    · simp only [show ¬(4 : Int) ≤ h.r by omega, h4, false_and, if_false]
  rcases hs.r23 with h2 | h3
  · rw [key_of2 md5 h pw _ hp (by omega), e, Spec.fileKey]
    rw [if_pos h2, padding_eq]; rfl
  · rw [key_of md5 h pw _ n hp (by omega) hs.len, e, Spec.fileKey]
    rw [if_neg (show ¬ r = 2 by omega), padding_eq]; rfl

theorem fileKey_length (md5 : Bytes → Bytes) (hm : ∀ x, (md5 x).length = 16) (r n : Nat) (em : Bool) (hn : 5 ≤ n) (hn' : n ≤ 16) (pw O : Bytes) (P : Int)
    (ID : Bytes) : 5 ≤ (Spec.fileKey md5 r n em pw O P ID).length ∧ (Spec.fileKey md5 r n em pw O P ID).length ≤ 16 := by
  unfold Spec.fileKey
  dsimp only
  split
  · rw [List.length_take, hm]; omega
  · rw [List.length_take, iterate_length _ (fun x => hm _) _ _ (hm _)]; omega

theorem xorKey_eq (key : Bytes) (i : Nat) : xorKey key i = key.map (· ^^^ UInt8.ofNat i) := rfl

theorem arc4Rounds_ok (key : Bytes) (hk : 5 ≤ key.length ∧ key.length ≤ 256) (is : List Nat) (d : Bytes) :
    arc4Rounds key is d = .ok (Spec.rc4Steps key (is.map fun (i : Nat) => UInt8.ofNat i) d) := by
  induction is generalizing d with
  | nil => rfl
  | cons i is ih =>
    rw [arc4Rounds, xorKey_eq, arc4_ok _ _ (by rw [List.length_map]; exact hk)]
    dsimp only
    rw [ih]; rfl

theorem rc4Steps_length (key : Bytes) (is : List UInt8) (d : Bytes) : (Spec.rc4Steps key is d).length = d.length := by
  induction is generalizing d with
  | nil => rfl
  | cons i is ih =>
    show (Spec.rc4Steps key is _).length = _
    rw [ih]; exact (rc4_involution _ _).2

theorem rc4Steps_append (key : Bytes) (a b : List UInt8) (d : Bytes) :
    Spec.rc4Steps key (a ++ b) d = Spec.rc4Steps key b (Spec.rc4Steps key a d) := by
  unfold Spec.rc4Steps; rw [List.foldl_append]

theorem rc4Steps_reverse (key : Bytes) (is : List UInt8) (d : Bytes) :
    Spec.rc4Steps key is.reverse (Spec.rc4Steps key is d) = d := by
  induction is generalizing d with
  | nil => rfl
  | cons i is ih =>
    rw [List.reverse_cons, rc4Steps_append]
    show Spec.rc4Steps key [i] (Spec.rc4Steps key is.reverse (Spec.rc4Steps key is _)) = d
    rw [ih]; exact (rc4_involution _ _).1

theorem map_xor_zero (key : Bytes) : key.map (· ^^^ (0 : UInt8)) = key := by
  simp

theorem rc4Steps_twenty (key d : Bytes) : Spec.rc4Steps key Spec.steps20 d =
    Spec.rc4Steps key (((List.range 19).map (· + 1)).map fun (i : Nat) => UInt8.ofNat i) (Spec.rc4 key d) := by
  have : Spec.steps20 = [0] ++ (((List.range 19).map (· + 1)).map fun (i : Nat) => UInt8.ofNat i) := by decide
  rw [this, rc4Steps_append]
  have e : Spec.rc4Steps key [0] d = Spec.rc4 (key.map (· ^^^ (0 : UInt8))) d := rfl
  rw [e, map_xor_zero]

theorem steps20_reverse : ((List.range 20).reverse.map fun (i : Nat) => UInt8.ofNat i) = Spec.steps20.reverse := by decide

attribute [local irreducible] Spec.rc4 Spec.rc4Steps Spec.padding passwordPadding Spec.steps20 rc4Init

/-- What the check of a key compares: `compute_u` starts with the computed part of the U entry. -/
theorem computeU2 (md5 : Bytes → Bytes) (h : Handler) (hr : h.r = 2) (key : Bytes) (hk : 5 ≤ key.length ∧ key.length ≤ 256) :
    h.computeU md5 key = .ok (Spec.rc4 key Spec.padding) := by
  unfold Handler.computeU
  rw [if_pos hr, arc4_ok _ _ hk, padding_eq]

theorem computeU3 (md5 : Bytes → Bytes) (h : Handler) (hr : 3 ≤ h.r) (key : Bytes) (hk : 5 ≤ key.length ∧ key.length ≤ 256) :
    h.computeU md5 key = .ok (Spec.rc4Steps key Spec.steps20 (md5 (Spec.padding ++ h.docid0)) ++
      Spec.rc4Steps key Spec.steps20 (md5 (Spec.padding ++ h.docid0))) := by
  unfold Handler.computeU
  rw [if_neg (by omega), arc4_ok _ _ hk, padding_eq]
  dsimp only
  rw [arc4Rounds_ok _ hk]
  dsimp only
  rw [← rc4Steps_twenty]

/-- The check of a key is the comparison with the U entry made from that key. -/
theorem verify_iff (md5 : Bytes → Bytes) (hm : ∀ x, (md5 x).length = 16) {h : Handler} {r n : Nat} (hs : Spec.Standard h r n) (key : Bytes)
    (hk : 5 ≤ key.length ∧ key.length ≤ 256) :
    h.verifyEncryptionKey md5 key =
      .ok (Spec.sameU r h.u (Spec.entryU md5 r key h.docid0 [])) := by
  unfold Handler.verifyEncryptionKey
  have hrev := hs.rev
  rcases hs.r23 with h2 | h3
  · have hr : h.r = 2 := by omega
    rw [computeU2 md5 h hr key hk]
    dsimp only
    rw [if_pos hr, Spec.sameU, if_pos h2, Spec.entryU, if_pos h2]
    congr 1
    exact decide_eq_decide.2 eq_comm
  · have hn2 : ¬ r = 2 := by omega
    have hl : (Spec.rc4Steps key Spec.steps20 (md5 (Spec.padding ++ h.docid0))).length = 16 := by rw [rc4Steps_length, hm]
    rw [computeU3 md5 h (by omega) key hk]
    dsimp only
    rw [if_neg (by omega), Spec.sameU, if_neg hn2, Spec.entryU, if_neg hn2, List.append_nil,
      List.take_append_of_le_length (by omega)]
    congr 1
    exact decide_eq_decide.2 eq_comm

theorem sameU_filler (md5 : Bytes → Bytes) (hm : ∀ x, (md5 x).length = 16) (r : Nat) (key ID filler : Bytes) :
    Spec.sameU r (Spec.entryU md5 r key ID filler) (Spec.entryU md5 r key ID []) = true := by
  by_cases hr : r = 2
  · rw [Spec.sameU, if_pos hr, Spec.entryU, if_pos hr, Spec.entryU, if_pos hr]; exact decide_eq_true rfl
  · have hl : (Spec.rc4Steps key Spec.steps20 (md5 (Spec.padding ++ ID))).length = 16 := by rw [rc4Steps_length, hm]
    rw [Spec.sameU, if_neg hr, Spec.entryU, if_neg hr, Spec.entryU, if_neg hr, List.append_nil,
      List.take_append_of_le_length (by omega)]
    exact decide_eq_true rfl

theorem authenticateUser_eq (md5 : Bytes → Bytes) (hm : ∀ x, (md5 x).length = 16) {h : Handler} {r n : Nat} (hs : Spec.Standard h r n)
    (pw : Bytes) :
    h.authenticateUser md5 pw =
      .ok (if Spec.sameU r h.u (Spec.entryU md5 r (Spec.fileKey md5 r n h.encryptMetadata pw h.o h.p h.docid0) h.docid0 []) = true then
        some (Spec.fileKey md5 r n h.encryptMetadata pw h.o h.p h.docid0) else none) := by
  have hl := fileKey_length md5 hm r n h.encryptMetadata hs.n5 hs.n16 pw h.o h.p h.docid0
  unfold Handler.authenticateUser
  rw [computeKey md5 hs]
  dsimp only
  rw [verify_iff md5 hm hs _ ⟨hl.1, by omega⟩]
  generalize Spec.sameU r h.u _ = P
  cases P <;> rfl

theorem latin1_ok (s : PyStr) (h : ∀ c ∈ s, c < 256) : latin1 s = .ok (s.map fun c => UInt8.ofNat c) := by
  induction s with
  | nil => rfl
  | cons c cs ih =>
    rw [latin1, if_pos (h c (by simp)), ih (fun c hc => h c (by simp [hc]))]; rfl

theorem authenticate_of (md5 : Bytes → Bytes) (h : Handler) (pw : PyStr) (hc : ∀ c ∈ pw, c < 256) :
    h.authenticate md5 pw = match h.authenticateUser md5 (pw.map fun c => UInt8.ofNat c) with
      | .error e => .error e
      | .ok (some key) => .ok (some key)
      | .ok none => h.authenticateOwner md5 (pw.map fun c => UInt8.ofNat c) := by
  unfold Handler.authenticate; rw [latin1_ok _ hc]; rfl

/-- **C73.** Opening with the user password returns the file key, for every document whose U entry was made from that password as
ISO 32000-1 says (revisions 2, 3 and 4), whatever the filler of the U entry. -/
theorem user_password (md5 : Bytes → Bytes) (hm : ∀ x, (md5 x).length = 16) {h : Handler} {r n : Nat} (hs : Spec.Standard h r n)
    (user : PyStr) (hc : ∀ c ∈ user, c < 256) (filler : Bytes)
    (hu : h.u = Spec.entryU md5 r (Spec.fileKey md5 r n h.encryptMetadata (user.map fun c => UInt8.ofNat c) h.o h.p h.docid0) h.docid0 filler) :
    h.initKey md5 user = .ok (Spec.fileKey md5 r n h.encryptMetadata (user.map fun c => UInt8.ofNat c) h.o h.p h.docid0) := by
  unfold Handler.initKey
  rw [authenticate_of md5 h user hc, authenticateUser_eq md5 hm hs, hu, sameU_filler md5 hm r]
  rfl

theorem fileKey_pad32 (md5 : Bytes → Bytes) (r n : Nat) (em : Bool) (pw O : Bytes) (P : Int) (ID : Bytes) :
    Spec.fileKey md5 r n em (Spec.pad32 pw) O P ID = Spec.fileKey md5 r n em pw O P ID := by
  unfold Spec.fileKey; rw [pad32_pad32]

theorem ownerKey_eq (md5 : Bytes → Bytes) {h : Handler} {r n : Nat} (hs : Spec.Standard h r n) (pw : Bytes) :
    h.ownerKey md5 pw = Spec.ownerKey md5 r n pw := by
  unfold Handler.ownerKey Spec.ownerKey
  have e : h.length / 8 = (n : Int) := by have := hs.len; omega
  rw [padding_eq, e, pySlice_take, md5Again_eq]
  have hrev := hs.rev
  rcases hs.r23 with h2 | h3
  · rw [if_neg (by omega), if_pos h2]; rfl
  · rw [if_pos (by omega), if_neg (by omega)]; rfl

theorem ownerKey_length (md5 : Bytes → Bytes) (hm : ∀ x, (md5 x).length = 16) (r n : Nat) (hn : 5 ≤ n) (hn' : n ≤ 16) (pw : Bytes) :
    5 ≤ (Spec.ownerKey md5 r n pw).length ∧ (Spec.ownerKey md5 r n pw).length ≤ 16 := by
  unfold Spec.ownerKey
  split
  · rw [List.length_take, hm]; omega
  · rw [List.length_take, iterate_length _ hm _ _ (hm _)]; omega

/-- The owner password recovers the padded user password from the O entry. -/
theorem authenticateOwner_eq (md5 : Bytes → Bytes) (hm : ∀ x, (md5 x).length = 16) {h : Handler} {r n : Nat} (hs : Spec.Standard h r n)
    (owner user : Bytes) (ho : h.o = Spec.entryO md5 r n owner user) :
    h.authenticateOwner md5 owner = h.authenticateUser md5 (Spec.pad32 user) := by
  have hl := ownerKey_length md5 hm r n hs.n5 hs.n16 owner
  unfold Handler.authenticateOwner
  rw [ownerKey_eq md5 hs]
  have hrev := hs.rev
  rcases hs.r23 with h2 | h3
  · rw [if_pos (show h.r = 2 by omega), arc4_ok _ _ ⟨hl.1, by omega⟩, ho, Spec.entryO, if_pos h2, (rc4_involution _ _).1]
  · rw [if_neg (by omega), arc4Rounds_ok _ ⟨hl.1, by omega⟩, ho, Spec.entryO, if_neg (by omega)]
    rw [steps20_reverse, rc4Steps_reverse]

/-- **C73.** Opening with the owner password returns the same file key as the user password, for every document whose O and U entries
were made as ISO 32000-1 says, unless the owner password is itself accepted as a user password. -/
theorem owner_password (md5 : Bytes → Bytes) (hm : ∀ x, (md5 x).length = 16) {h : Handler} {r n : Nat} (hs : Spec.Standard h r n)
    (owner : PyStr) (hc : ∀ c ∈ owner, c < 256) (user filler : Bytes)
    (ho : h.o = Spec.entryO md5 r n (owner.map fun c => UInt8.ofNat c) user)
    (hu : h.u = Spec.entryU md5 r (Spec.fileKey md5 r n h.encryptMetadata user h.o h.p h.docid0) h.docid0 filler)
    (hno : h.authenticateUser md5 (owner.map fun c => UInt8.ofNat c) = .ok none) :
    h.initKey md5 owner = .ok (Spec.fileKey md5 r n h.encryptMetadata user h.o h.p h.docid0) := by
  unfold Handler.initKey
  rw [authenticate_of md5 h owner hc, hno]
  dsimp only
  rw [authenticateOwner_eq md5 hm hs _ user ho, authenticateUser_eq md5 hm hs, fileKey_pad32, hu, sameU_filler md5 hm r]
  rfl

/-- **C73.** A document is opened only with a key that reproduces its U entry: whatever the password, a returned key is checked. -/
theorem key_checked (md5 : Bytes → Bytes) (hm : ∀ x, (md5 x).length = 16) {h : Handler} {r n : Nat} (hs : Spec.Standard h r n)
    (pw : PyStr) (key : Bytes) (hk : h.initKey md5 pw = .ok key) :
    Spec.sameU r h.u (Spec.entryU md5 r key h.docid0 []) = true ∧ ∃ user, key = Spec.fileKey md5 r n h.encryptMetadata user h.o h.p h.docid0 := by
  have huser : ∀ p k, h.authenticateUser md5 p = .ok (some k) →
      Spec.sameU r h.u (Spec.entryU md5 r k h.docid0 []) = true ∧ ∃ user, k = Spec.fileKey md5 r n h.encryptMetadata user h.o h.p h.docid0 := by
    intro p k hh
    rw [authenticateUser_eq md5 hm hs] at hh
    split at hh
    · next e =>
      cases hh
      exact ⟨e, p, rfl⟩
    · cases hh
  unfold Handler.initKey at hk
  generalize ha : h.authenticate md5 pw = a at hk
  match a with
  | .error e => cases hk
  | .ok none => cases hk
  | .ok (some k) =>
    cases hk
    unfold Handler.authenticate at ha
    generalize latin1 pw = l at ha
    match l with
    | .error e => cases ha
    | .ok p =>
      dsimp only at ha
      generalize hau : h.authenticateUser md5 p = u at ha
      match u with
      | .error e => cases ha
      | .ok (some k') => cases ha; exact huser p _ hau
      | .ok none =>
        dsimp only at ha
        unfold Handler.authenticateOwner at ha
        generalize (if h.r = 2 then _ else _ : Except PyErr Bytes) = w at ha
        match w with
        | .error e => cases ha
        | .ok w => exact huser w _ ha

/-- **C73.** A password that does not reproduce the U entry, directly or through the O entry, is refused with an error: no key is
returned. -/
theorem wrong_password (md5 : Bytes → Bytes) (hm : ∀ x, (md5 x).length = 16) {h : Handler} {r n : Nat} (hs : Spec.Standard h r n)
    (pw : PyStr) (hc : ∀ c ∈ pw, c < 256)
    (hu : Spec.sameU r h.u (Spec.entryU md5 r (Spec.fileKey md5 r n h.encryptMetadata (pw.map fun c => UInt8.ofNat c) h.o h.p h.docid0) h.docid0 []) = false)
    (ho : Spec.sameU r h.u (Spec.entryU md5 r (Spec.fileKey md5 r n h.encryptMetadata
      (Spec.recoveredUser md5 r n (pw.map fun c => UInt8.ofNat c) h.o) h.o h.p h.docid0) h.docid0 []) = false) :
    h.initKey md5 pw = .error .nameError := by
  unfold Handler.initKey
  rw [authenticate_of md5 h pw hc, authenticateUser_eq md5 hm hs, hu]
  have hl := ownerKey_length md5 hm r n hs.n5 hs.n16 (pw.map fun c => UInt8.ofNat c)
  have e : h.authenticateOwner md5 (pw.map fun c => UInt8.ofNat c) =
      h.authenticateUser md5 (Spec.recoveredUser md5 r n (pw.map fun c => UInt8.ofNat c) h.o) := by
    unfold Handler.authenticateOwner
    rw [ownerKey_eq md5 hs]
    have hrev := hs.rev
    rcases hs.r23 with h2 | h3
    · rw [if_pos (show h.r = 2 by omega), arc4_ok _ _ ⟨hl.1, by omega⟩, Spec.recoveredUser, if_pos h2]
    · rw [if_neg (by omega), arc4Rounds_ok _ ⟨hl.1, by omega⟩, Spec.recoveredUser, if_neg (by omega), steps20_reverse]
  simp only [Bool.false_eq_true, if_false]
  rw [e, authenticateUser_eq md5 hm hs, ho]
  rfl

/-- A permissions value written as an unsigned number stops the handler: `struct.error`. -/
theorem unsigned_permissions (md5 : Bytes → Bytes) (h : Handler) (hp : 2147483648 ≤ h.p) (pw : PyStr) (hc : ∀ c ∈ pw, c < 256) :
    h.initKey md5 pw = .error .structError := by
  have e : packP h.p = .error .structError := by
    unfold packP packi; rw [if_neg (by omega)]
  have hk : ∀ x, h.computeEncryptionKey md5 x = .error .structError := fun x => by
    unfold Handler.computeEncryptionKey; rw [e]
  unfold Handler.initKey
  rw [authenticate_of md5 h pw hc]
  unfold Handler.authenticateUser
  rw [hk]

/-- A hash of 16 bytes for the examples. -/
def Spec.toyHash (x : Bytes) : Bytes := [UInt8.ofNat x.length, x.foldl (fun a b => a * 3 + b) 1] ++ List.replicate 14 (x.foldl (· + ·) 0)

theorem Spec.toyHash_length (x : Bytes) : (Spec.toyHash x).length = 16 := by
  simp [Spec.toyHash]

/-- A document of revision 2 with the user password `abc` and the owner password `xy`. -/
def Spec.toyDocument : Handler :=
  ⟨2, -44, [184, 28, 185, 129, 45, 187, 12, 224, 97, 232, 118, 33, 210, 250, 173, 93, 248, 160, 3, 89, 223, 194, 144, 174, 174, 118, 0, 49,
      39, 50, 99, 224],
    [130, 147, 209, 249, 116, 49, 98, 58, 97, 166, 159, 197, 123, 142, 198, 248, 25, 187, 202, 81, 144, 65, 102, 173, 60, 0, 91, 178, 220,
      12, 175, 59], 40, [1, 2], false⟩

theorem Spec.toyDocument_o : Spec.toyDocument.o = Spec.entryO Spec.toyHash 2 5 [120, 121] [97, 98, 99] := by decide +kernel

theorem Spec.toyDocument_u : Spec.toyDocument.u =
    Spec.entryU Spec.toyHash 2 (Spec.fileKey Spec.toyHash 2 5 false [97, 98, 99] Spec.toyDocument.o (-44) [1, 2]) [1, 2] [] := by decide +kernel

/-- The owner password is not accepted as a user password, so that both theorems apply to this document. -/
theorem Spec.toyDocument_no : Spec.toyDocument.authenticateUser Spec.toyHash [120, 121] = .ok none := by decide +kernel

/-- The password `abd` is refused. -/
example : Spec.toyDocument.initKey Spec.toyHash [97, 98, 100] = .error .nameError :=
  wrong_password Spec.toyHash Spec.toyHash_length (r := 2) (n := 5) ⟨rfl, .inl rfl, rfl, le_refl _, by decide, by decide⟩ [97, 98, 100] (by decide)
    (by decide +kernel) (by decide +kernel)

/-- There are documents of every revision, with a key of 128 bits, for every pair of passwords. -/
example (md5 : Bytes → Bytes) (owner user ID filler : Bytes) (r : Nat) (hr : r = 2 ∨ r = 3 ∨ r = 4) (em : Bool) :
    ∃ h : Handler, Spec.Standard h r 16 ∧ h.o = Spec.entryO md5 r 16 owner user ∧
      h.u = Spec.entryU md5 r (Spec.fileKey md5 r 16 h.encryptMetadata user h.o h.p h.docid0) h.docid0 filler ∧ h.encryptMetadata = em := by
  generalize Spec.entryO md5 r 16 owner user = o
  refine ⟨⟨r, -44, o, Spec.entryU md5 r (Spec.fileKey md5 r 16 em user o (-44) ID) ID filler, 128, ID, em⟩, ⟨rfl, hr, rfl, ?_, ?_, ?_, ?_⟩,
    rfl, rfl, rfl⟩
  · norm_num
  · norm_num
  · show (-2147483648 : Int) ≤ -44; norm_num
  · show (-44 : Int) < 2147483648; norm_num

/-! ### AES -/

theorem xorBlock_xorBlock (a b : Bytes) (h : a.length = b.length) : Spec.xorBlock (Spec.xorBlock a b) b = a := by
  induction a generalizing b with
  | nil => rfl
  | cons x xs ih =>
    cases b with
    | nil => cases h
    | cons y ys =>
      have := ih ys (by simpa using h)
      simp only [Spec.xorBlock, List.zipWith_cons_cons, xor_cancel] at this ⊢
      rw [this]

theorem xorBlock_length (a b : Bytes) (h : a.length = b.length) : (Spec.xorBlock a b).length = a.length := by
  simp [Spec.xorBlock, h]

/-- Decryption in CBC mode inverts encryption, block by block. -/
theorem cbc_inverse (E D : Bytes → Bytes) (hl : ∀ b, b.length = 16 → (E b).length = 16) (hi : ∀ b, b.length = 16 → D (E b) = b)
    (blocks : List Bytes) (hb : ∀ b ∈ blocks, b.length = 16) (iv : Bytes) (hiv : iv.length = 16) :
    cbcBlocks D blocks.length iv (Spec.cbcEncrypt E iv blocks) = blocks.flatten ∧
      (Spec.cbcEncrypt E iv blocks).length = 16 * blocks.length := by
  induction blocks generalizing iv with
  | nil => exact ⟨rfl, rfl⟩
  | cons b bs ih =>
    have hb' : b.length = 16 := hb b (by simp)
    have hx : (Spec.xorBlock b iv).length = 16 := by rw [xorBlock_length _ _ (by omega), hb']
    have he := hl _ hx
    obtain ⟨i1, i2⟩ := ih (fun b h => hb b (by simp [h])) (E (Spec.xorBlock b iv)) he
    constructor
    · rw [List.length_cons, cbcBlocks, Spec.cbcEncrypt]
      rw [List.take_append_of_le_length (by omega), List.take_of_length_le (by omega), hi _ hx, List.drop_append_of_le_length (by omega),
        List.drop_of_length_le (by omega), List.nil_append, i1]
      show Spec.xorBlock (Spec.xorBlock b iv) iv ++ _ = _
      rw [xorBlock_xorBlock _ _ (by omega), List.flatten_cons]
    · rw [Spec.cbcEncrypt, List.length_append, he, i2, List.length_cons]; omega

theorem aesCbc_inverse (E D : Bytes → Bytes → Bytes) (hc : Spec.BlockCipher E D) (key iv : Bytes)
    (hk : key.length = 16 ∨ key.length = 24 ∨ key.length = 32) (hiv : iv.length = 16) (blocks : List Bytes)
    (hb : ∀ b ∈ blocks, b.length = 16) :
    aesCbc D key iv (Spec.cbcEncrypt (E key) iv blocks) = .ok blocks.flatten := by
  obtain ⟨h1, h2⟩ := cbc_inverse (E key) (D key) (hc.len key) (hc.inv key) blocks hb iv hiv
  unfold aesCbc
  rw [if_pos ⟨hk, hiv, by omega⟩, h2, Nat.mul_div_cancel_left _ (by norm_num), h1]

theorem pkcs_blocks (data : Bytes) : (Spec.pkcs data).length % 16 = 0 := by
  unfold Spec.pkcs
  rw [List.length_append, List.length_replicate]
  omega

theorem blocks16_spec (n : Nat) (d : Bytes) (h : d.length = 16 * n) :
    (Spec.blocks16 n d).flatten = d ∧ (∀ b ∈ Spec.blocks16 n d, b.length = 16) ∧ (Spec.blocks16 n d).length = n := by
  induction n generalizing d with
  | zero =>
    have : d = [] := List.eq_nil_of_length_eq_zero (by omega)
    subst this; exact ⟨rfl, by simp [Spec.blocks16], rfl⟩
  | succ n ih =>
    obtain ⟨h1, h2, h3⟩ := ih (d.drop 16) (by rw [List.length_drop]; omega)
    refine ⟨?_, ?_, ?_⟩
    · rw [Spec.blocks16, List.flatten_cons, h1, List.take_append_drop]
    · intro b hb
      rw [Spec.blocks16, List.mem_cons] at hb
      rcases hb with rfl | hb
      · rw [List.length_take]; omega
      · exact h2 b hb
    · rw [Spec.blocks16, List.length_cons, h3]

theorem cbc_roundtrip (E D : Bytes → Bytes → Bytes) (hc : Spec.BlockCipher E D) (key iv : Bytes)
    (hk : key.length = 16 ∨ key.length = 24 ∨ key.length = 32) (hiv : iv.length = 16) (data : Bytes) :
    aesCbc D key ((Spec.aesEncrypt (E key) iv data).take 16) ((Spec.aesEncrypt (E key) iv data).drop 16) = .ok (Spec.pkcs data) := by
  have hp := pkcs_blocks data
  obtain ⟨h1, h2, h3⟩ := blocks16_spec ((Spec.pkcs data).length / 16) (Spec.pkcs data) (by omega)
  unfold Spec.aesEncrypt
  rw [List.take_append_of_le_length (by omega), List.take_of_length_le (by omega), List.drop_append_of_le_length (by omega),
    List.drop_of_length_le (by omega), List.nil_append, aesCbc_inverse E D hc key iv hk hiv _ h2, h1]

theorem decryptAes128_of (md5 : Bytes → Bytes) (D : BlockDec) (key : Bytes) (objid genno : Int) (k data : Bytes)
    (h : objectKey md5 key objid genno [0x73, 0x41, 0x6c, 0x54] = .ok k) :
    decryptAes128 md5 D key objid genno data = aesCbc D k (data.take 16) (data.drop 16) := by
  unfold decryptAes128; rw [h]

/-- **C74 (partial).** The AES handlers return the plaintext of what was encrypted in CBC mode with the key of the object (version 4) or of
the file (version 5), followed by its padding: the padding, 1 to 16 bytes, is left at the end of every string and stream. -/
theorem decrypt_aes_partial (md5 : Bytes → Bytes) (hm : ∀ x, (md5 x).length = 16) (E D : Bytes → Bytes → Bytes)
    (hc : Spec.BlockCipher E D) (iv : Bytes) (hiv : iv.length = 16) (data : Bytes) (objid genno : Nat) (ho : objid < 4294967296)
    (hg : genno < 4294967296) :
    (∀ key, key.length = 16 →
      decryptAes128 md5 D key objid genno (Spec.aesEncrypt (E (Spec.objectKey md5 key objid genno (Spec.ascii "sAlT"))) iv data) =
        .ok (Spec.pkcs data)) ∧
    (∀ key, key.length = 32 → decryptAes256 D key objid genno (Spec.aesEncrypt (E key) iv data) = .ok (Spec.pkcs data)) ∧
    ∃ pad, Spec.pkcs data = data ++ pad ∧ 1 ≤ pad.length ∧ pad.length ≤ 16 := by
  refine ⟨?_, ?_, ?_⟩
  · intro key hk
    have hl : (Spec.objectKey md5 key objid genno (Spec.ascii "sAlT")).length = 16 := by
      unfold Spec.objectKey; rw [List.length_take, hm]
      have : (Spec.ascii "sAlT").length = 4 := by decide
      omega
    have ha : Spec.ascii "sAlT" = [0x73, 0x41, 0x6c, 0x54] := by decide
    rw [decryptAes128_of md5 D key objid genno _ _ (by rw [← ha]; exact objectKey_ok md5 key objid genno ho hg (Spec.ascii "sAlT"))]
    exact cbc_roundtrip E D hc _ iv (.inl hl) hiv data
  · intro key hk
    exact cbc_roundtrip E D hc key iv (.inr (.inr hk)) hiv data
  · refine ⟨_, rfl, ?_, ?_⟩ <;> rw [List.length_replicate] <;> omega

/-- A cipher for the examples: the exclusive or with the key. -/
theorem Spec.toyCipher : Spec.BlockCipher (fun k b => Spec.xorBlock b ((k ++ List.replicate 16 0).take 16))
    (fun k b => Spec.xorBlock b ((k ++ List.replicate 16 0).take 16)) := by
  constructor
  · intro k b h; rw [xorBlock_length _ _ (by simp; omega), h]
  · intro k b h; rw [xorBlock_xorBlock _ _ (by simp; omega)]

/-- The padding stays: the two bytes `hi` come back as 16 bytes. -/
example : ∃ c, decryptAes256 (fun k b => Spec.xorBlock b ((k ++ List.replicate 16 0).take 16)) (List.replicate 32 5) 1 0 c =
    .ok ([104, 105] ++ List.replicate 14 14) :=
  ⟨_, (decrypt_aes_partial Spec.toyHash Spec.toyHash_length _ _ Spec.toyCipher (List.replicate 16 9) rfl [104, 105] 1 0 (by norm_num)
    (by norm_num)).2.1 (List.replicate 32 5) rfl⟩

/-- An encrypted string shorter than the initialization vector, such as an empty one, is refused. -/
theorem aes_short (D : BlockDec) (key data : Bytes) (objid genno : Int) (h : data.length < 16) :
    decryptAes256 D key objid genno data = .error .valueError := by
  unfold decryptAes256 aesCbc
  rw [if_neg]
  rw [List.length_take]; omega

/-- **C74.** Metadata that the document says are not encrypted, and the data of the identity filter, are passed through. -/
theorem identity_passes (md5 : Bytes → Bytes) (D : BlockDec) (em : Bool) (f : CryptMethod) (key : Bytes) (objid genno : Int) (data : Bytes)
    (typ : Option Bytes) :
    (em = false → decryptV4 md5 D em f key objid genno data (some (Spec.ascii "Metadata")) = .ok data) ∧
    decryptV4 md5 D em .identity key objid genno data typ = .ok data ∧
    (em = true ∨ typ ≠ some (Spec.ascii "Metadata") → decryptV4 md5 D em f key objid genno data typ = f.run md5 D key objid genno data) := by
  have ha : Spec.ascii "Metadata" = [77, 101, 116, 97, 100, 97, 116, 97] := by decide
  unfold decryptV4
  rw [ha]
  refine ⟨fun h => by rw [if_pos ⟨h, rfl⟩], ?_, ?_⟩
  · split <;> rfl
  · rintro (h | h)
    · rw [if_neg (by rw [h]; simp)]
    · rw [if_neg (by tauto)]

/-! ### Passwords of version 5 -/

/-- **C75.** With the entries O, OE, U and UE made as the extension of ISO 32000 for AES-256 says, the owner password and the user
password both return the file key. -/
theorem version5_passwords (sha : Bytes → Bytes) (hsha : ∀ x, (sha x).length = 32) (E D : Bytes → Bytes → Bytes) (hc : Spec.BlockCipher E D)
    (key : Bytes) (hk : key.length = 32) (user owner uv uk ov ok : Bytes) (huv : uv.length = 8) (hov : ov.length = 8) :
    let h : Handler5 := Spec.version5 sha E key (user.take 127) (owner.take 127) uv uk ov ok
    h.authenticate sha D owner = .ok (some key) ∧
    (sha (user.take 127 ++ ov ++ h.u) ≠ sha (owner.take 127 ++ ov ++ h.u) → h.authenticate sha D user = .ok (some key)) := by
  intro h
  have hz : (List.replicate 16 (0 : UInt8)).length = 16 := rfl
  have h1 : h.o.take 32 = sha (owner.take 127 ++ ov ++ h.u) := by
    show List.take 32 (sha _ ++ ov ++ ok) = _
    rw [List.append_assoc, List.take_append_of_le_length (by rw [hsha]), List.take_of_length_le (by rw [hsha])]; rfl
  have h2 : (h.o.drop 32).take 8 = ov := by
    show (List.drop 32 (sha _ ++ ov ++ ok)).take 8 = _
    rw [List.append_assoc, List.drop_append_of_le_length (by rw [hsha]), List.drop_of_length_le (by rw [hsha]), List.nil_append,
      List.take_append_of_le_length (by omega), List.take_of_length_le (by omega)]
  have h3 : h.o.drop 40 = ok := by
    show List.drop 40 (sha _ ++ ov ++ ok) = _
    have : (sha (owner.take 127 ++ ov ++ (sha (user.take 127 ++ uv) ++ uv ++ uk)) ++ ov).length = 40 := by
      rw [List.length_append, hsha, hov]
    exact List.drop_left' this
  have h4 : h.u.take 32 = sha (user.take 127 ++ uv) := by
    show List.take 32 (sha _ ++ uv ++ uk) = _
    rw [List.append_assoc, List.take_append_of_le_length (by rw [hsha]), List.take_of_length_le (by rw [hsha])]
  have h5 : (h.u.drop 32).take 8 = uv := by
    show (List.drop 32 (sha _ ++ uv ++ uk)).take 8 = _
    rw [List.append_assoc, List.drop_append_of_le_length (by rw [hsha]), List.drop_of_length_le (by rw [hsha]), List.nil_append,
      List.take_append_of_le_length (by omega), List.take_of_length_le (by omega)]
  have h6 : h.u.drop 40 = uk := by
    show List.drop 40 (sha _ ++ uv ++ uk) = _
    have : (sha (user.take 127 ++ uv) ++ uv).length = 40 := by rw [List.length_append, hsha, huv]
    exact List.drop_left' this
  have b := blocks16_spec 2 key (by omega)
  have dec : ∀ k, k.length = 32 → aesCbc D k (List.replicate 16 0) (Spec.cbcEncrypt (E k) (List.replicate 16 0) (Spec.blocks16 2 key)) =
      .ok key := by
    intro k hk'
    rw [aesCbc_inverse E D hc k _ (.inr (.inr hk')) hz _ b.2.1, b.1]
  constructor
  · unfold Handler5.authenticate
    dsimp only
    rw [h1, h2, h3, if_pos rfl]
    show (aesCbc D _ _ (Spec.cbcEncrypt (E (sha (owner.take 127 ++ ok ++ h.u))) _ _)).map some = _
    rw [dec _ (hsha _)]; rfl
  · intro hne
    unfold Handler5.authenticate
    dsimp only
    rw [h1, h2, h3, if_neg hne, h4, h5, h6, if_pos rfl]
    show (aesCbc D _ _ (Spec.cbcEncrypt (E (sha (user.take 127 ++ uk))) _ _)).map some = _
    rw [dec _ (hsha _)]; rfl

/-- **C75.** A password that matches neither hash returns no key. -/
theorem version5_wrong (sha : Bytes → Bytes) (D : BlockDec) (h : Handler5) (pw : Bytes)
    (ho : sha (pw.take 127 ++ (h.o.drop 32).take 8 ++ h.u) ≠ h.o.take 32) (hu : sha (pw.take 127 ++ (h.u.drop 32).take 8) ≠ h.u.take 32) :
    h.authenticate sha D pw = .ok none := by
  unfold Handler5.authenticate
  dsimp only
  rw [if_neg ho, if_neg hu]

/-- A hash of 32 bytes for the example. -/
def Spec.toyHash32 (x : Bytes) : Bytes := Spec.toyHash x ++ Spec.toyHash (x.reverse)

example :
    let h := Spec.version5 Spec.toyHash32 (fun k b => Spec.xorBlock b ((k ++ List.replicate 16 0).take 16)) (List.replicate 32 77) [97] [98]
      [1, 2, 3, 4, 5, 6, 7, 8] [2, 2, 3, 4, 5, 6, 7, 8] [3, 2, 3, 4, 5, 6, 7, 8] [4, 2, 3, 4, 5, 6, 7, 8]
    h.authenticate Spec.toyHash32 (fun k b => Spec.xorBlock b ((k ++ List.replicate 16 0).take 16)) [98] = .ok (some (List.replicate 32 77)) ∧
    h.authenticate Spec.toyHash32 (fun k b => Spec.xorBlock b ((k ++ List.replicate 16 0).take 16)) [97] = .ok (some (List.replicate 32 77)) ∧
    h.authenticate Spec.toyHash32 (fun k b => Spec.xorBlock b ((k ++ List.replicate 16 0).take 16)) [99] = .ok none := by
  decide +kernel

end Pdf
