import Verif.Spec.EncryptedFile
import Verif.Props.Pipeline
import Verif.Props.Fonts
/-! C93: from the bytes of an encrypted file to its text. -/

namespace Pdf
open Spec

/-! ### The security handler -/

theorem utf8_encode {b : Bytes} {s : PyStr} (h : Utf8 b s) : utf8Encode s = .ok b := by
  induction h with
  | nil => rfl
  | @one c r s h _ ih => rw [utf8Encode, utf8Char, if_pos h, ih]; rfl
  | @two x y r s h1 h2 h3 _ ih =>
    rw [utf8Encode, utf8Char, if_neg (by omega), if_pos h3, ih, show (x * 64 + y) / 64 = x by omega, show (x * 64 + y) % 64 = y by omega]; rfl
  | @three x y z c r s h1 h2 h3 h4 h5 h6 _ ih =>
    rw [utf8Encode, utf8Char, if_neg (by omega), if_neg (by omega), if_neg (by omega), if_pos h5, ih,
      show c / 4096 = x by omega, show c / 64 % 64 = y by omega, show c % 64 = z by omega]; rfl
  | @four x y z w c r s h1 h2 h3 h4 h5 h6 _ ih =>
    rw [utf8Encode, utf8Char, if_neg (by omega), if_neg (by omega), if_neg (by omega), if_neg (by omega), if_pos h6, ih,
      show c / 262144 = x by omega, show c / 4096 % 64 = y by omega, show c / 64 % 64 = z by omega, show c % 64 = w by omega]; rfl

/-- The handler reads back what is stored. -/
structure Deciphers (md5 : Bytes → Bytes) (E : Bytes → Bytes → Bytes) (L : Lock) (c : Cipher) : Prop where
  strings : ∀ i g s s', StoredString md5 E L i g s s' → c.decrypt i g s none = .ok s'
  streams : ∀ i g d raw read, StoredStream md5 E L i g d raw read → c.decrypt i g raw (some d) = .ok read

attribute [local irreducible] Spec.rc4 Spec.rc4Steps Spec.padding passwordPadding Spec.steps20 rc4Init decryptRc4

theorem stored_run {md5 : Bytes → Bytes} (hm : ∀ x, (md5 x).length = 16) {E D : Bytes → Bytes → Bytes} (hc : BlockCipher E D) {key : Bytes} {i g : Nat} {m : CryptMethod}
    {s s' : Bytes} (hi : i < 4294967296) (hg : g < 4294967296) (h : Stored md5 E key i g m s s') : m.run md5 D key i g s = .ok s' := by
  cases h with
  | identity => rfl
  | rc4 => rw [CryptMethod.run]; exact decrypt_rc4_encrypted md5 hm key i g hi hg s'
  | @aes128 iv data h1 h2 => exact (decrypt_aes_partial md5 hm E D hc iv h1 data i g hi hg).1 key h2
  | @aes256 iv data h1 h2 => exact (decrypt_aes_partial md5 hm E D hc iv h1 data i g hi hg).2.1 key h2

theorem metadata_name : asc "Metadata" = ascii "Metadata" := by decide

theorem typeName_eq (d : List (Key × Obj)) : typeName (some d) = some (ascii "Metadata") ↔ dictGet d (nm "Type") = some (.name (asc "Metadata")) := by
  rw [typeName, metadata_name]
  generalize dictGet d (nm "Type") = r
  rcases r with _ | o
  · simp
  · cases o <;> simp

theorem decipher_v4 {C : Crypto} (hm : ∀ x, (C.md5 x).length = 16) {E : Bytes → Bytes → Bytes} (hc : BlockCipher E C.aes) (L : Lock) (p : Int) :
    Deciphers C.md5 E L ⟨fun i g data attrs => decryptV4 C.md5 C.aes L.encryptsMeta L.method L.key i g data (typeName attrs), p⟩ := by
  constructor
  · rintro i g s s' ⟨n, m, rfl, rfl, hn, hm', h⟩
    show decryptV4 _ _ _ _ _ _ _ _ none = _
    rw [(identity_passes C.md5 C.aes L.encryptsMeta L.method L.key n m s none).2.2 (.inr (by simp))]
    exact stored_run hm hc hn hm' h
  · rintro i g d raw read h
    show decryptV4 _ _ _ _ _ _ _ _ (typeName (some d)) = _
    rcases h with ⟨h1, h2, rfl⟩ | ⟨h1, n, m, rfl, rfl, hn, hm', h⟩
    · rw [(typeName_eq d).2 h2]
      exact (identity_passes C.md5 C.aes L.encryptsMeta L.method L.key i g raw none).1 h1
    · rw [(identity_passes C.md5 C.aes L.encryptsMeta L.method L.key n m raw (typeName (some d))).2.2
        (h1.imp id fun h1 h2 => h1 ((typeName_eq d).1 h2))]
      exact stored_run hm hc hn hm' h

theorem decipher_rc4 {C : Crypto} (hm : ∀ x, (C.md5 x).length = 16) {E : Bytes → Bytes → Bytes} (hc : BlockCipher E C.aes) (key : Bytes) (p : Int) :
    Deciphers C.md5 E ⟨.v2, key, true⟩ ⟨fun i g data _ => decryptRc4 C.md5 key i g data, p⟩ := by
  constructor
  · rintro i g s s' ⟨n, m, rfl, rfl, hn, hm', h⟩
    exact stored_run hm hc hn hm' h
  · rintro i g d raw read (⟨h1, _⟩ | ⟨_, n, m, rfl, rfl, hn, hm', h⟩)
    · cases h1
    · exact stored_run hm hc hn hm' h

section values
variable {R : Resolver} (hR : R.Direct)
include hR

theorem intValue_int (n : Int) : R.intValue (.int n) = .ok n := by
  unfold Resolver.intValue; rw [hR _ (by simp)]

theorem strValue_str (s : Bytes) : R.strValue (.str s) = .ok (some s) := by
  unfold Resolver.strValue; rw [hR _ (by simp)]

theorem dictValue_dict (d : List (Key × Obj)) : R.dictValue (.dict d) = .ok d := by
  unfold Resolver.dictValue; rw [hR _ (by simp)]

theorem intValue_direct (o : Obj) (h : ∀ i g, o ≠ .ref i g) : ∃ n, R.intValue o = .ok n := by
  unfold Resolver.intValue; rw [hR _ h]
  cases o <;> exact ⟨_, rfl⟩

theorem initParams_ok {param : List (Key × Obj)} {v r p : Int} {o u : Bytes} (hv : dictGet param (nm "V") = some (.int v)) (hr : dictGet param (nm "R") = some (.int r))
    (hp : dictGet param (nm "P") = some (.int p)) (ho : dictGet param (nm "O") = some (.str o)) (hu : dictGet param (nm "U") = some (.str u)) {len : Int}
    (hl : R.intValue ((dictGet param (nm "Length")).getD (.int 40)) = .ok len) : initParams R param = .ok ⟨r, p, some o, some u, len⟩ := by
  simp only [initParams, paramAt, hv, hr, hp, ho, hu, Option.getD_some, intValue_int hR, strValue_str hR, hl, bind, Except.bind]

theorem cryptFilters_ok {v5 : Bool} {methods : List (Bytes × CryptMethod)} (hg : ∀ x ∈ methods, getCfm v5 (.name x.1) = some x.2) :
    ∀ {cf : List (Key × Obj)}, (∀ e ∈ cf, ∃ d m, e.2 = .dict d ∧ dictGet d (nm "CFM") = some (.name m) ∧ ∃ x ∈ methods, x.1 = m) →
    ∃ l, cryptFilters v5 cf = .ok l ∧ ∀ k d m x, dictGet cf k = some (.dict d) → dictGet d (nm "CFM") = some (.name m) → (m, x) ∈ methods → dictGet l k = some x := by
  intro cf
  induction cf with
  | nil => intro _; exact ⟨[], rfl, fun k d m x h => by cases h⟩
  | cons e cf ih =>
    intro h
    obtain ⟨d, m, h1, h2, x, hx, rfl⟩ := h e (by simp)
    obtain ⟨l, hl, hl'⟩ := ih fun e he => h e (by simp [he])
    obtain ⟨k, v⟩ := e
    dsimp only at h1
    subst h1
    refine ⟨(k, x.2) :: l, ?_, ?_⟩
    · simp only [cryptFilters, cfmEntry, paramAt, h2, bind, Except.bind, hg x hx, hl]
    · intro k' d' m' x' hk hm hx'
      by_cases e : k = k'
      · subst e
        rw [dictGet, if_pos rfl] at hk ⊢
        cases hk
        rw [h2] at hm
        cases hm
        rw [← hg x hx, hg _ hx']
      · rw [dictGet, if_neg e] at hk ⊢
        exact hl' _ _ _ _ hk hm hx'

theorem initFilters_ok {v5 : Bool} {methods : List (Bytes × CryptMethod)} (hg : ∀ x ∈ methods, getCfm v5 (.name x.1) = some x.2) {param : List (Key × Obj)}
    {method : CryptMethod} {em : Bool} (h : FilterEntries param methods method em) : initFilters v5 R param = .ok (method, em) := by
  obtain ⟨⟨f, cf, h1, h2, h3, h4, h5⟩, h6⟩ := h
  have he : metadataFlag param = em := by
    unfold metadataFlag
    rcases h6 with ⟨h6, rfl⟩ | h6 <;> rw [h6]
  obtain ⟨l, hl, hl'⟩ := cryptFilters_ok hR hg h4
  simp only [initFilters, paramAt, h1, h2, h3, Option.getD_some, dictValue_dict hR, bind, Except.bind, hl, Obj.key, he]
  rw [if_neg (by simp)]
  rcases h5 with ⟨rfl, rfl⟩ | ⟨hne, d, m, h5, h7, h8⟩
  · exact if_pos rfl
  · rw [if_neg (by intro e; exact hne (by simpa [nm] using e)), hl' _ _ _ _ h5 h7 h8]

end values

theorem startKey_ok {C : Crypto} (hm : ∀ x, (C.md5 x).length = 16) {param : List (Key × Obj)} {r n : Nat} {em : Bool} {id0 user owner filler O : Bytes} {P : Int} {pw : PyStr}
    {more : List Obj} {len : Int} (hr : r = 2 ∨ r = 3 ∨ r = 4) (h : PasswordEntries C.md5 param r n em id0 user owner filler O P)
    (ho : OpensWith C.md5 r n em id0 user owner filler O P pw) :
    startKey C ⟨r, P, some O, some (entryU C.md5 r (fileKey C.md5 r n em user O P id0) id0 filler), len⟩ (8 * n) em (.str id0 :: more) (some pw) =
      .ok (fileKey C.md5 r n em user O P id0) := by
  obtain ⟨hc, hpw⟩ := ho
  simp only [startKey, latin1_ok pw hc, packP_ok P h.range, docid0, bind, Except.bind, Option.getD_some]
  generalize hh : (⟨r, P, O, entryU C.md5 r (fileKey C.md5 r n em user O P id0) id0 filler, 8 * n, id0, em⟩ : Handler) = H
  have hs : Standard H r n := by
    subst hh
    exact ⟨rfl, hr, rfl, h.size.1, h.size.2, h.range⟩
  have e1 : H.o = O := by rw [← hh]
  have e2 : H.p = P := by rw [← hh]
  have e3 : H.docid0 = id0 := by rw [← hh]
  have e4 : H.encryptMetadata = em := by rw [← hh]
  have e5 : H.u = entryU C.md5 r (fileKey C.md5 r n em user O P id0) id0 filler := by rw [← hh]
  rcases hpw with hpw | ⟨hpw, hno⟩
  · have := user_password C.md5 hm hs pw hc filler (by rw [e1, e2, e3, e4, e5, hpw])
    rw [this, e1, e2, e3, e4, hpw]
  · have := owner_password C.md5 hm hs pw hc user filler (by rw [e1, hpw]; exact h.owner) (by rw [e1, e2, e3, e4, e5]) (by
      rw [authenticateUser_eq C.md5 hm hs, e1, e2, e3, e4, e5, hpw, hno]; rfl)
    rw [this, e1, e2, e3, e4]

/-- The handler of a document that the password opens. -/
theorem makeCipher_ok {C : Crypto} (hm : ∀ x, (C.md5 x).length = 16) (hsha : ∀ x, (C.sha x).length = 32) {E : Bytes → Bytes → Bytes} (hc : BlockCipher E C.aes)
    {param : List (Key × Obj)} {ids : List Obj} {pw : PyStr} {L : Lock} {P : Int} (h : Unlocks C E param ids pw L P) :
    ∃ c, (∀ R : Resolver, R.Direct → makeCipher C R ids param (some pw) = .ok c) ∧ c.p = P ∧ Deciphers C.md5 E L c := by
  cases h with
  | @rc4 r n id0 more user owner filler O _ _ v hv hr hV hp hl ho =>
    refine ⟨⟨fun i g data _ => decryptRc4 C.md5 (fileKey C.md5 r n false user O P id0) i g data, P⟩, fun R hR => ?_, rfl, decipher_rc4 hm hc _ _⟩
    have hlen : R.intValue ((dictGet param (nm "Length")).getD (.int 40)) = .ok ((8 * n : Nat) : Int) := by
      rcases hl with hl | ⟨hl, rfl⟩
      · rw [hl]; exact intValue_int hR _
      · rw [hl]; exact intValue_int hR _
    · unfold makeCipher
      rw [if_neg (by rw [hp.filter]; simp), hV]
      simp only [Option.getD_some, intValue_int hR, bind, Except.bind]
      rw [if_pos hv]
      simp only [standardCipher, initParams_ok hR hV hp.revision hp.permissions hp.ownerEntry hp.user hlen, bind, Except.bind]
      rw [if_pos (by rcases hr with rfl | rfl <;> simp), show (((8 * n : Nat) : Int)) = 8 * (n : Int) by push_cast; rfl,
        startKey_ok hm (by tauto) hp ho]
  | @v4 id0 more user owner filler O _ _ method em hV hp hf hl ho =>
    refine ⟨⟨fun i g data attrs => decryptV4 C.md5 C.aes em method (fileKey C.md5 4 16 em user O P id0) i g data (typeName attrs), P⟩, fun R hR => ?_, rfl, decipher_v4 hm hc ⟨method, _, em⟩ _⟩
    obtain ⟨len, hlen⟩ : ∃ len, R.intValue ((dictGet param (nm "Length")).getD (.int 40)) = .ok len := by
      cases hd : dictGet param (nm "Length") with
      | none => exact ⟨40, intValue_int hR _⟩
      | some o => exact intValue_direct hR o (hl o hd)
    · unfold makeCipher
      rw [if_neg (by rw [hp.filter]; simp), hV]
      simp only [Option.getD_some, intValue_int hR, bind, Except.bind]
      rw [if_neg (by decide), if_pos trivial]
      simp only [cipherV4, initParams_ok hR hV hp.revision hp.permissions hp.ownerEntry hp.user hlen, bind, Except.bind]
      rw [initFilters_ok hR (methods := [(asc "V2", .v2), (asc "AESV2", .aesV2)]) (by decide) hf]
      dsimp only
      rw [if_pos (by norm_num), show (128 : Int) = 8 * ((16 : Nat) : Int) by norm_num, startKey_ok hm (by tauto) hp ho]
  | @v5 _ _ _ b method em key user owner uv uk ov ok hV hF hr hp h1 h2 h3 hO hU hOE hUE hf hl hu hpw =>
    refine ⟨⟨fun i g data attrs => decryptV4 C.md5 C.aes em method key i g data (typeName attrs), P⟩, fun R hR => ?_, rfl, decipher_v4 hm hc ⟨method, key, em⟩ _⟩
    obtain ⟨len, hlen⟩ : ∃ len, R.intValue ((dictGet param (nm "Length")).getD (.int 40)) = .ok len := by
      cases hd : dictGet param (nm "Length") with
      | none => exact ⟨40, intValue_int hR _⟩
      | some o => exact intValue_direct hR o (hl o hd)
    have hv5 := version5_passwords C.sha hsha E C.aes hc key h1 user owner uv uk ov ok h2 h3
    dsimp only at hv5
    have ha : (version5 C.sha E key (user.take 127) (owner.take 127) uv uk ov ok).authenticate C.sha C.aes b = .ok (some key) := by
      rcases hpw with rfl | ⟨rfl, hne⟩
      · exact hv5.1
      · exact hv5.2 hne
    · unfold makeCipher
      rw [if_neg (by rw [hF]; simp), hV]
      simp only [Option.getD_some, intValue_int hR, bind, Except.bind]
      rw [if_neg (by decide), if_neg (by decide), if_pos trivial]
      simp only [cipherV5, initParams_ok hR hV hr hp hO hU hlen, bind, Except.bind]
      rw [initFilters_ok hR (methods := [(asc "AESV3", .aesV3)]) (by decide) hf]
      simp only [paramAt, hOE, hUE, strValue_str hR]
      rw [if_pos trivial]
      simp only [startKey5, utf8_encode hu, bind, Except.bind]
      rw [ha]

/-! ### The objects of the file -/

theorem mem_decrypted {f g : Bytes → Bytes → Prop} (h : ∀ s s', f s s' → g s s') {o o' : Obj} (hd : Decrypted f o o') : Decrypted g o o' := by
  refine Decrypted.rec (motive_1 := fun o o' _ => Decrypted g o o') (motive_2 := fun l l' _ => DecryptedSeq g l l') (motive_3 := fun l l' _ => DecryptedItems g l l')
    ?_ ?_ ?_ ?_ ?_ ?_ ?_ ?_ hd
  · intro s s' hs; exact .str (h _ _ hs)
  · intro l l' _ hl; exact .arr hl
  · intro l l' _ hl; exact .dict hl
  · intro o h1 h2 h3; exact .other h1 h2 h3
  · exact .nil
  · intro o o' l l' _ _ h1 h2; exact .cons h1 h2
  · exact .nil
  · intro k o o' l l' _ _ h1 h2; exact .cons h1 h2

theorem hidden_yields {S : Setup} (hb : 0 < S.bufsiz) {E : Bytes → Bytes → Bytes} {L : Lock} {c : Cipher} (hc : Deciphers S.crypto.md5 E L c) {data : Bytes} {secs : List Sec}
    {i gen : Int} {o : Obj} (h : Hidden S.crypto.md5 E S.fileDecode L data secs i gen o) :
    (S.docWith data (some c) (secs.map Sec.pos)).Yields true {} i (.ok (o, gen)) := by
  have hskip : ∀ (i : Int) (newer : List Sec), (∀ y ∈ newer, y.pos i = .error .keyError) → ∀ y ∈ newer.map Sec.pos, y i = .error .keyError := by
    intro i newer hn y hy
    obtain ⟨z, hz, rfl⟩ := List.mem_map.1 hy
    exact hn z hz
  generalize hD : S.docWith data (some c) (secs.map Sec.pos) = D
  have hbD : 0 < D.bufsiz := by rw [← hD]; exact hb
  have hfD : D.fallback = false := by rw [← hD]; rfl
  have hdD : D.data = data := by rw [← hD]; rfl
  have hxD : D.xrefs = secs.map Sec.pos := by rw [← hD]; rfl
  have hcD : D.decipher = some fun i g s => c.decrypt i g s none := by rw [← hD]; rfl
  have hoD : ∀ i g d raw read, c.decrypt i g raw (some d) = .ok read → D.decode (some (i, g)) d raw = S.fileDecode d read := by
    intro i g d raw read h
    rw [← hD]
    show (match c.decrypt i g raw (some d) with
      | .ok r => S.fileDecode d r
      | .error e => .error e) = _
    rw [h]
  clear hD
  induction h with
  | @plain i gen newer sec older g pre rest pts ts o o' pos hi hs hn hp h1 h2 h3 h4 h5 =>
    refine encrypted_object D hbD _ hcD .start i hi (newer.map Sec.pos) (older.map Sec.pos) sec.pos (by simp [hxD, hs]) (hskip i newer hn) pos gen g hp pre rest pts ts o o'
      (by rw [hdD]; exact h1) h2 h3 h4 (mem_decrypted (fun s s' h => hc.strings i gen s s' h) h5)
  | @stream i gen newer sec older g pre eol payload gap rest mid tail pts ets ts d pos hi hs hn hp h1 h2 h3 h4 h5 h6 h7 h8 h9 h10 h11 =>
    refine newest_wins D hbD .start i hi (newer.map Sec.pos) (older.map Sec.pos) sec.pos (none, pos, gen) _ (by simp [hxD, hs])
      (fun y hy => .inl (hskip i newer hn y hy)) hp ⟨ts.length + 4, fun n hn => ?_⟩
    dsimp only [loadEntry, loadOffset]
    rw [if_neg (by omega), Int.toNat_natCast, stream_payload (σ := Cache) ⟨D.fallback, resolve1 (getobj D false n) n⟩ (resolve1_direct _ _ _) hfD D.bufsiz hbD D.data pos i g
      pre eol payload gap rest mid tail pts ets ts d (.int payload.length) n {} {} (by rw [hdD]; exact h1) h2 h3 h4 h5 h6 (resolve1_direct _ _ _ _ _ (by simp)) h7 h8 h9 h10 h11 hn, hcD]
    rfl
  | @streamRef i gen newer sec older g pre eol payload gap rest mid tail pts ets ts d j j' j'' pos hi hs hn hp h1 h2 h3 h4 h5 h6 hj h7 h8 h9 h10 h11 ih =>
    rw [cache_transparency D hbD .start, yields_evt D hbD] at ih
    refine newest_wins D hbD .start i hi (newer.map Sec.pos) (older.map Sec.pos) sec.pos (none, pos, gen) _ (by simp [hxD, hs])
      (fun y hy => .inl (hskip i newer hn y hy)) hp ((ih.2.and (Evt.ge (ts.length + 4))).mono fun n hn => ?_)
    have hr : resolve1 (getobj D false n) n (.ref j j') {} = (.ok (.int payload.length), {}) := by
      obtain ⟨m, rfl⟩ : ∃ m, n = m + 1 := ⟨n - 1, by omega⟩
      simp only [resolve1, resolveTag]
      rw [uncached_eq D hbD, hn.1]
      cases m <;> rfl
    dsimp only [loadEntry, loadOffset]
    rw [if_neg (by omega), Int.toNat_natCast, stream_payload (σ := Cache) ⟨D.fallback, resolve1 (getobj D false n) n⟩ (resolve1_direct _ _ _) hfD D.bufsiz hbD D.data pos i g
      pre eol payload gap rest mid tail pts ets ts d (.ref j j') n {} {} (by rw [hdD]; exact h1) h2 h3 h4 h5 h6 hr h7 h8 h9 h10 h11 hn.2, hcD]
    rfl
  | @packed i newer sec older gen strm g d raw read text pts header os o k n hi hs hn hp hl hst hd ht hw hr hN hh ho ih =>
    exact objstm_object D hbD .start i hi (newer.map Sec.pos) (older.map Sec.pos) sec.pos (by simp [hxD, hs]) (hskip i newer hn) strm k gen g hp d raw text ih
      ((hoD _ _ _ _ _ (hc.streams _ _ _ _ _ hst)).trans hd) pts header os ht hw hr n hN hh o ho

theorem unsealed_reveal {md5 : Bytes → Bytes} {E : Bytes → Bytes → Bytes} {L : Lock} {c : Cipher} (hc : Deciphers md5 E L c) {i g : Int} {o o' : Obj}
    (h : Unsealed md5 E L i g o o') : reveal (some c) (some (i, g)) o = .ok o' := by
  cases h with
  | other h => cases o <;> first | rfl | exact absurd rfl (h _ _)
  | @stream d raw read h => simp only [reveal, hc.streams _ _ _ _ _ h]

theorem docResolver_direct (D : Doc) (cipher : Option Cipher) (c : Bool) (n : Nat) (s : Cache) : (docResolver D cipher c n s).Direct := by
  intro o h
  simp only [docResolver]
  have h1 : resolveTag (getobj D c n) n o none s = (.ok (o, none), s) := by
    cases n <;> cases o <;> first | rfl | exact absurd rfl (h _ _)
  rw [h1]
  cases o <;> first | exact absurd rfl (h _ _) | (cases cipher <;> rfl)

theorem plainValue_resolves {S : Setup} (hb : 0 < S.bufsiz) {data : Bytes} {secs : List Sec} {o v : Obj} (h : PlainValue S.fileDecode data secs o v) (c : Bool) :
    Evt fun n => (docResolver (S.doc data true (secs.map Sec.pos)) none c n {}).resolve1 o = .ok v := by
  cases h with
  | direct h => exact .all fun n => docResolver_direct _ _ _ _ _ _ h
  | @ref i g o h hl =>
    obtain ⟨_, g', hy⟩ := located_yields hb hl
    refine ((yields_both _ hb hy c).and (Evt.ge 1)).mono fun n hn => ?_
    obtain ⟨m, rfl⟩ : ∃ m, n = m + 1 := ⟨n - 1, by omega⟩
    simp only [docResolver, resolveTag]
    obtain ⟨s, hs⟩ : ∃ s, getobj (S.doc data true (secs.map Sec.pos)) c (m + 1) i {} = (.ok (v, g'), s) := ⟨_, Prod.ext hn.1 rfl⟩
    rw [hs]
    dsimp only
    have : resolveTag (getobj (S.doc data true (secs.map Sec.pos)) c (m + 1)) m v (some (i, g')) s = (.ok (v, some (i, g')), s) := by
      cases m <;> cases v <;> first | rfl | exact absurd rfl (h _ _)
    rw [this]
    exact reveal_none _ _

/-! ### Opening the document -/

theorem trailers_locked (C : Crypto) (pw : Option PyStr) (res : Option Cipher → Resolver) {before after : List (List (Key × Obj))} {t : List (Key × Obj)} {root : Obj} {c : Cipher}
    {catalog : List (Key × Obj)} (hbe : ∀ x ∈ before, dictGet x (nm "Root") = none ∧ dictGet x (nm "Encrypt") = none ∧ dictGet x (nm "Info") = none)
    (hi : initCipher C pw (res none) t none = .ok (some c)) (hr : dictGet t (nm "Root") = some root) (hroot : (res (some c)).dictValue root = .ok catalog)
    {info : List (List (Key × Obj))} (hinfo : addInfo (res (some c)).dictValue t [] = .ok info) :
    trailerLoop C pw res (before ++ t :: after) none [] = .ok (some c, info, catalog) := by
  induction before with
  | nil =>
    rw [List.nil_append, trailerLoop, hi]
    dsimp only
    rw [hinfo]
    dsimp only
    rw [show nameRoot = nm "Root" from rfl, hr]
    dsimp only
    rw [hroot]
  | cons x before ih =>
    obtain ⟨h1, h2, h3⟩ := hbe x (by simp)
    rw [List.cons_append, trailerLoop, initCipher, h2]
    dsimp only
    rw [addInfo, show nameInfo = nm "Info" from rfl, h3]
    dsimp only
    rw [show nameRoot = nm "Root" from rfl, h1]
    exact ih fun y hy => hbe y (by simp [hy])

/-- The document is opened: its objects are those of the file, decrypted. -/
theorem locked_open {S : Setup} (hb : 0 < S.bufsiz) (hm : ∀ x, (S.crypto.md5 x).length = 16) (hsha : ∀ x, (S.crypto.sha x).length = 32) {E : Bytes → Bytes → Bytes}
    (hc : BlockCipher E S.crypto.aes) {data : Bytes} {secs : List Sec} (h : Sections S.fileDecode data secs) {before after : List (List (Key × Obj))} {t : List (Key × Obj)}
    (ht : secs.map Sec.trailer = before ++ t :: after)
    (hbe : ∀ x ∈ before, dictGet x (nm "Root") = none ∧ dictGet x (nm "Encrypt") = none ∧ dictGet x (nm "Info") = none) {enc : Obj} {param : List (Key × Obj)}
    (he : dictGet t (nm "Encrypt") = some enc) (hpv : PlainValue S.fileDecode data secs enc (.dict param)) {idv : Obj} {ids : List Obj}
    (hid : dictGet t (nm "ID") = some idv) (hidv : PlainValue S.fileDecode data secs idv (.arr ids)) {pw : PyStr} {L : Lock} {P : Int}
    (hu : Unlocks S.crypto E param ids pw L P) {objs : List (Int × Obj)} (ho : LockedObjects S.crypto.md5 E S.fileDecode L data secs objs) {root : Obj}
    (hr : dictGet t (nm "Root") = some root) (hin : ∀ v, dictGet t (nm "Info") = some v → ∃ w, (fileResolver objs).resolve1 v = .ok w) {catalog : List (Key × Obj)}
    (hcat : (fileResolver objs).resolve1 root = .ok (.dict catalog)) (caching : Bool) :
    Evt fun n => ∃ O c, openDocument S (some pw) caching n data = .ok O ∧ O.cipher = some c ∧ c.p = P ∧ O.catalog = catalog ∧ O.resolver caching n = fileResolver objs := by
  have hne : secs ≠ [] := by rintro rfl; simp at ht
  obtain ⟨c, hmk, hp, hd⟩ : ∃ c, (∀ R : Resolver, R.Direct → makeCipher S.crypto R ids param (some pw) = .ok c) ∧ c.p = P ∧ Deciphers S.crypto.md5 E L c :=
    makeCipher_ok hm hsha hc hu
  have hres : Evt fun n => docResolver (S.docWith data (some c) (secs.map Sec.pos)) (some c) caching n {} = fileResolver objs := by
    refine resolver_generic _ hb (by simpa [Setup.docWith] using hne) (some c) (fun i o hio => ?_) (fun i hio x hx => ?_) caching
    · obtain ⟨h0, gen, o0, h1, h2⟩ := ho.located i o hio
      exact ⟨h0, ho.direct i o hio, o0, gen, hidden_yields hb hd h1, unsealed_reveal hd h2⟩
    · obtain ⟨z, hz, rfl⟩ := List.mem_map.1 (show x ∈ secs.map Sec.pos from hx)
      exact ho.complete i hio z hz
  refine ((sections_open hb h (some pw) caching).and (hres.and ((plainValue_resolves hb hpv caching).and (plainValue_resolves hb hidv caching)))).mono fun n hn => ?_
  obtain ⟨⟨xs, h1, h2⟩, h3, h4, h5⟩ := hn
  obtain ⟨h6, h7⟩ := is_trailers h1
  rw [h2]
  unfold openRoot
  rw [h6, h7, ht]
  have hic : initCipher S.crypto (some pw) (docResolver (S.docWith data none (secs.map Sec.pos)) none caching n {}) t none = .ok (some c) := by
    have e1 : (docResolver (S.docWith data none (secs.map Sec.pos)) none caching n {}).dictValue enc = .ok param := by
      unfold Resolver.dictValue; rw [show S.docWith data none (secs.map Sec.pos) = S.doc data true (secs.map Sec.pos) from rfl, h4]
    have e2 : (docResolver (S.docWith data none (secs.map Sec.pos)) none caching n {}).listValue idv = .ok ids := by
      unfold Resolver.listValue; rw [show S.docWith data none (secs.map Sec.pos) = S.doc data true (secs.map Sec.pos) from rfl, h5]
    rw [initCipher, he]
    dsimp only
    rw [hid]
    dsimp only
    rw [e2]
    dsimp only
    rw [e1]
    dsimp only
    rw [hmk _ (docResolver_direct _ _ _ _ _)]
    rfl
  have hroot : (fileResolver objs).dictValue root = .ok catalog := by unfold Resolver.dictValue; rw [hcat]
  obtain ⟨info, hinfo⟩ : ∃ info, addInfo (fileResolver objs).dictValue t [] = .ok info := by
    rw [addInfo, show nameInfo = nm "Info" from rfl]
    cases hi : dictGet t (nm "Info") with
    | none => exact ⟨_, rfl⟩
    | some v =>
      obtain ⟨w, hw⟩ := hin v hi
      dsimp only
      unfold Resolver.dictValue
      rw [hw]
      cases w <;> exact ⟨_, rfl⟩
  rw [trailers_locked S.crypto (some pw) (fun cipher => docResolver (S.docWith data cipher (secs.map Sec.pos)) cipher caching n {}) (after := after) hbe hic hr
    (by show (docResolver (S.docWith data (some c) (secs.map Sec.pos)) (some c) caching n {}).dictValue root = _; rw [h3]; exact hroot)
    (by show addInfo (docResolver (S.docWith data (some c) (secs.map Sec.pos)) (some c) caching n {}).dictValue t [] = _; rw [h3]; exact hinfo)]
  exact ⟨_, c, rfl, rfl, hp, rfl, h3⟩

theorem cipher_extractable (c : Cipher) : c.isExtractable = permission c.p 5 :=
  (permissions ⟨0, c.p, [], [], 40, [], false⟩).2.2

/-- **C93.** From an encrypted file to the text: with the user or the owner password, if the document allows the extraction of text or the program does not
ask, the text file is the same as that of a plain document with these pages. -/
theorem encrypted_text (S : Setup) (hb : 0 < S.bufsiz) (hm : ∀ x, (S.crypto.md5 x).length = 16) (hsha : ∀ x, (S.crypto.sha x).length = 32) (E : Bytes → Bytes → Bytes)
    (hc : BlockCipher E S.crypto.aes) (data : Bytes) (opts : Options) (pw : PyStr) (hpw : opts.password = some pw) (texts : List PyStr) (P : Int)
    (h : LockedDocument S E opts.ignoreBad pw data texts P) (hx : opts.checkExtractable = false ∨ permission P 5 = true)
    (maxpages : Nat) (hmax : opts.maxpages = maxpages) (shown : List PyStr)
    (hs : shown = (texts.zipIdx.filter fun x => decide (Wanted opts.pagenos x.2 ∧ ∀ j < x.2, Wanted opts.pagenos j → maxpages = 0 ∨ j + 1 < maxpages)).map Prod.fst)
    (hne : shown ≠ []) : ∃ N, ∀ fuel ≥ N, convertText S opts fuel data = (textOf 0 shown, none) := by
  obtain ⟨secs, objs, before, t, after, enc, param, idv, ids, L, root, catalog, o, T, h1, h2, h3, h4, h5, h6, h7, h8, h9, h10, h11, h12, h13, h14, h15⟩ := h
  refine opened_text S hb data opts texts h13 h14 h15 ?_ maxpages hmax shown hs hne
  rw [hpw]
  refine (locked_open hb hm hsha hc h1 h2 h3 h4 h5 h6 h7 h8 h9 h10 h11 h12 opts.caching).mono ?_
  rintro n ⟨O, c, k1, k2, k3, k4, k5⟩
  refine ⟨O, k1, ?_, k4, k5⟩
  rw [k2, refused, cipher_extractable, k3]
  rcases hx with hx | hx <;> simp [hx]

/-- **C93.** A document that does not allow the extraction of text is refused, and nothing is written, unless the program is told not to ask. -/
theorem extraction_refused (S : Setup) (hb : 0 < S.bufsiz) (hm : ∀ x, (S.crypto.md5 x).length = 16) (hsha : ∀ x, (S.crypto.sha x).length = 32) (E : Bytes → Bytes → Bytes)
    (hc : BlockCipher E S.crypto.aes) (data : Bytes) (opts : Options) (pw : PyStr) (hpw : opts.password = some pw) (texts : List PyStr) (P : Int)
    (h : LockedDocument S E opts.ignoreBad pw data texts P) (hx : opts.checkExtractable = true) (hP : permission P 5 = false) :
    ∃ N, ∀ fuel ≥ N, convertText S opts fuel data = ([], some .notAllowed) := by
  obtain ⟨secs, objs, before, t, after, enc, param, idv, ids, L, root, catalog, o, T, h1, h2, h3, h4, h5, h6, h7, h8, h9, h10, h11, h12, h13, h14, h15⟩ := h
  refine (locked_open hb hm hsha hc h1 h2 h3 h4 h5 h6 h7 h8 h9 h10 h11 h12 opts.caching).mono ?_
  rintro n ⟨O, c, k1, k2, k3, k4, k5⟩
  unfold convertText
  rw [hpw, k1]
  dsimp only
  rw [k2, refused, cipher_extractable, k3, hx, hP]
  rfl

/-! ### Documents that are not opened -/

theorem startKey_refused {C : Crypto} (hm : ∀ x, (C.md5 x).length = 16) {param : List (Key × Obj)} {r n : Nat} {em : Bool} {id0 user owner filler O : Bytes} {P : Int} {pw : PyStr}
    {more : List Obj} {len : Int} (hr : r = 2 ∨ r = 3 ∨ r = 4) (h : PasswordEntries C.md5 param r n em id0 user owner filler O P)
    (ho : RefusedBy C.md5 r n em id0 user filler O P pw) :
    startKey C ⟨r, P, some O, some (entryU C.md5 r (fileKey C.md5 r n em user O P id0) id0 filler), len⟩ (8 * n) em (.str id0 :: more) (some pw) = .error .nameError := by
  obtain ⟨hc, hpw⟩ := ho
  simp only [startKey, latin1_ok pw hc, packP_ok P h.range, docid0, bind, Except.bind, Option.getD_some]
  generalize hh : (⟨r, P, O, entryU C.md5 r (fileKey C.md5 r n em user O P id0) id0 filler, 8 * n, id0, em⟩ : Handler) = H
  have hs : Standard H r n := by
    subst hh
    exact ⟨rfl, hr, rfl, h.size.1, h.size.2, h.range⟩
  have e1 : H.o = O := by rw [← hh]
  have e2 : H.p = P := by rw [← hh]
  have e3 : H.docid0 = id0 := by rw [← hh]
  have e4 : H.encryptMetadata = em := by rw [← hh]
  have e5 : H.u = entryU C.md5 r (fileKey C.md5 r n em user O P id0) id0 filler := by rw [← hh]
  refine wrong_password C.md5 hm hs pw hc ?_ ?_
  · rw [e1, e2, e3, e4, e5]; exact hpw _ (by simp)
  · rw [e1, e2, e3, e4, e5]; exact hpw _ (by simp)

theorem makeCipher_refused {C : Crypto} (hm : ∀ x, (C.md5 x).length = 16) (hsha : ∀ x, (C.sha x).length = 32) {E : Bytes → Bytes → Bytes}
    {param : List (Key × Obj)} {ids : List Obj} {pw : PyStr} (h : Refuses C E param ids pw) (R : Resolver) (hR : R.Direct) :
    makeCipher C R ids param (some pw) = .error .nameError := by
  cases h with
  | @rc4 r n id0 more user owner filler O P _ v hv hr hV hp hl ho =>
    have hlen : R.intValue ((dictGet param (nm "Length")).getD (.int 40)) = .ok ((8 * n : Nat) : Int) := by
      rcases hl with hl | ⟨hl, rfl⟩
      · rw [hl]; exact intValue_int hR _
      · rw [hl]; exact intValue_int hR _
    · unfold makeCipher
      rw [if_neg (by rw [hp.filter]; simp), hV]
      simp only [Option.getD_some, intValue_int hR, bind, Except.bind]
      rw [if_pos hv]
      simp only [standardCipher, initParams_ok hR hV hp.revision hp.permissions hp.ownerEntry hp.user hlen, bind, Except.bind]
      rw [if_pos (by rcases hr with rfl | rfl <;> simp), show (((8 * n : Nat) : Int)) = 8 * (n : Int) by push_cast; rfl,
        startKey_refused hm (by tauto) hp ho]
  | @v4 id0 more user owner filler O P _ method em hV hp hf hl ho =>
    obtain ⟨len, hlen⟩ : ∃ len, R.intValue ((dictGet param (nm "Length")).getD (.int 40)) = .ok len := by
      cases hd : dictGet param (nm "Length") with
      | none => exact ⟨40, intValue_int hR _⟩
      | some o => exact intValue_direct hR o (hl o hd)
    · unfold makeCipher
      rw [if_neg (by rw [hp.filter]; simp), hV]
      simp only [Option.getD_some, intValue_int hR, bind, Except.bind]
      rw [if_neg (by decide), if_pos trivial]
      simp only [cipherV4, initParams_ok hR hV hp.revision hp.permissions hp.ownerEntry hp.user hlen, bind, Except.bind]
      rw [initFilters_ok hR (methods := [(asc "V2", .v2), (asc "AESV2", .aesV2)]) (by decide) hf]
      dsimp only
      rw [if_pos (by norm_num), show (128 : Int) = 8 * ((16 : Nat) : Int) by norm_num, startKey_refused hm (by tauto) hp ho]
  | @v5 _ P _ b method em key user owner uv uk ov ok hV hF hr hp h1 h2 h3 hO hU hOE hUE hf hl hu hpu hpo =>
    obtain ⟨len, hlen⟩ : ∃ len, R.intValue ((dictGet param (nm "Length")).getD (.int 40)) = .ok len := by
      cases hd : dictGet param (nm "Length") with
      | none => exact ⟨40, intValue_int hR _⟩
      | some o => exact intValue_direct hR o (hl o hd)
    have ha : (version5 C.sha E key (user.take 127) (owner.take 127) uv uk ov ok).authenticate C.sha C.aes b = .ok none := by
      have e1 : ∀ x v w : Bytes, v.length = 8 → ((C.sha x ++ v ++ w).drop 32).take 8 = v := by
        intro x v w hv
        rw [List.append_assoc, List.drop_append_of_le_length (by rw [hsha]), List.drop_of_length_le (by rw [hsha]), List.nil_append,
          List.take_append_of_le_length (by omega), List.take_of_length_le (by omega)]
      have e2 : ∀ x v w : Bytes, (C.sha x ++ v ++ w).take 32 = C.sha x := by
        intro x v w
        rw [List.append_assoc, List.take_append_of_le_length (by rw [hsha]), List.take_of_length_le (by rw [hsha])]
      refine version5_wrong C.sha C.aes _ b ?_ ?_
      · have f1 : ((version5 C.sha E key (user.take 127) (owner.take 127) uv uk ov ok).o.drop 32).take 8 = ov := e1 _ _ _ h3
        have f2 : (version5 C.sha E key (user.take 127) (owner.take 127) uv uk ov ok).o.take 32 =
          C.sha (owner.take 127 ++ ov ++ (version5 C.sha E key (user.take 127) (owner.take 127) uv uk ov ok).u) := e2 _ _ _
        rw [f1, f2]; exact hpo
      · have f1 : ((version5 C.sha E key (user.take 127) (owner.take 127) uv uk ov ok).u.drop 32).take 8 = uv := e1 _ _ _ h2
        have f2 : (version5 C.sha E key (user.take 127) (owner.take 127) uv uk ov ok).u.take 32 = C.sha (user.take 127 ++ uv) := e2 _ _ _
        rw [f1, f2]; exact hpu
    · unfold makeCipher
      rw [if_neg (by rw [hF]; simp), hV]
      simp only [Option.getD_some, intValue_int hR, bind, Except.bind]
      rw [if_neg (by decide), if_neg (by decide), if_pos trivial]
      simp only [cipherV5, initParams_ok hR hV hr hp hO hU hlen, bind, Except.bind]
      rw [initFilters_ok hR (methods := [(asc "AESV3", .aesV3)]) (by decide) hf]
      simp only [paramAt, hOE, hUE, strValue_str hR]
      rw [if_pos trivial]
      simp only [startKey5, utf8_encode hu, bind, Except.bind]
      rw [ha]

theorem makeCipher_none {C : Crypto} {E : Bytes → Bytes → Bytes}
    {param : List (Key × Obj)} {ids : List Obj} {pw : PyStr} {L : Lock} {P : Int} (h : Unlocks C E param ids pw L P) (R : Resolver) (hR : R.Direct) :
    makeCipher C R ids param none = .error .attributeError := by
  cases h with
  | @rc4 r n id0 more user owner filler O _ _ v hv hr hV hp hl ho =>
    have hlen : R.intValue ((dictGet param (nm "Length")).getD (.int 40)) = .ok ((8 * n : Nat) : Int) := by
      rcases hl with hl | ⟨hl, rfl⟩
      · rw [hl]; exact intValue_int hR _
      · rw [hl]; exact intValue_int hR _
    · unfold makeCipher
      rw [if_neg (by rw [hp.filter]; simp), hV]
      simp only [Option.getD_some, intValue_int hR, bind, Except.bind]
      rw [if_pos hv]
      simp only [standardCipher, initParams_ok hR hV hp.revision hp.permissions hp.ownerEntry hp.user hlen, bind, Except.bind]
      rw [if_pos (by rcases hr with rfl | rfl <;> simp)]
      rfl
  | @v4 id0 more user owner filler O _ _ method em hV hp hf hl ho =>
    obtain ⟨len, hlen⟩ : ∃ len, R.intValue ((dictGet param (nm "Length")).getD (.int 40)) = .ok len := by
      cases hd : dictGet param (nm "Length") with
      | none => exact ⟨40, intValue_int hR _⟩
      | some o => exact intValue_direct hR o (hl o hd)
    · unfold makeCipher
      rw [if_neg (by rw [hp.filter]; simp), hV]
      simp only [Option.getD_some, intValue_int hR, bind, Except.bind]
      rw [if_neg (by decide), if_pos trivial]
      simp only [cipherV4, initParams_ok hR hV hp.revision hp.permissions hp.ownerEntry hp.user hlen, bind, Except.bind]
      rw [initFilters_ok hR (methods := [(asc "V2", .v2), (asc "AESV2", .aesV2)]) (by decide) hf]
      dsimp only
      rw [if_pos (by norm_num)]
      rfl
  | @v5 _ _ _ b method em key user owner uv uk ov ok hV hF hr hp h1 h2 h3 hO hU hOE hUE hf hl hu hpw =>
    obtain ⟨len, hlen⟩ : ∃ len, R.intValue ((dictGet param (nm "Length")).getD (.int 40)) = .ok len := by
      cases hd : dictGet param (nm "Length") with
      | none => exact ⟨40, intValue_int hR _⟩
      | some o => exact intValue_direct hR o (hl o hd)
    · unfold makeCipher
      rw [if_neg (by rw [hF]; simp), hV]
      simp only [Option.getD_some, intValue_int hR, bind, Except.bind]
      rw [if_neg (by decide), if_neg (by decide), if_pos trivial]
      simp only [cipherV5, initParams_ok hR hV hr hp hO hU hlen, bind, Except.bind]
      rw [initFilters_ok hR (methods := [(asc "AESV3", .aesV3)]) (by decide) hf]
      simp only [paramAt, hOE, hUE, strValue_str hR]
      rw [if_pos trivial]
      rfl

/-- A document for which no handler can be made is not opened. -/
theorem locked_closed {S : Setup} (hb : 0 < S.bufsiz) {data : Bytes} {param : List (Key × Obj)} {ids : List Obj} (h : LockedWith S.fileDecode data param ids) (pw : Option PyStr) {e : PyErr}
    (he : ∀ R : Resolver, R.Direct → makeCipher S.crypto R ids param pw = .error e) (caching : Bool) : Evt fun n => openDocument S pw caching n data = .error e := by
  obtain ⟨secs, before, t, after, enc, idv, h1, h2, h3, h4, h5, h6, h7⟩ := h
  refine ((sections_open hb h1 pw caching).and ((plainValue_resolves hb h5 caching).and (plainValue_resolves hb h7 caching))).mono fun n hn => ?_
  obtain ⟨⟨xs, g1, g2⟩, g4, g5⟩ := hn
  obtain ⟨g6, g7⟩ := is_trailers g1
  rw [g2]
  unfold openRoot
  rw [g6, g7, h2]
  have hic : initCipher S.crypto pw (docResolver (S.docWith data none (secs.map Sec.pos)) none caching n {}) t none = .error e := by
    have e1 : (docResolver (S.docWith data none (secs.map Sec.pos)) none caching n {}).dictValue enc = .ok param := by
      unfold Resolver.dictValue; rw [show S.docWith data none (secs.map Sec.pos) = S.doc data true (secs.map Sec.pos) from rfl, g4]
    have e2 : (docResolver (S.docWith data none (secs.map Sec.pos)) none caching n {}).listValue idv = .ok ids := by
      unfold Resolver.listValue; rw [show S.docWith data none (secs.map Sec.pos) = S.doc data true (secs.map Sec.pos) from rfl, g5]
    rw [initCipher, h4]
    dsimp only
    rw [h6]
    dsimp only
    rw [e2]
    dsimp only
    rw [e1]
    dsimp only
    rw [he _ (docResolver_direct _ _ _ _ _)]
    rfl
  have key : ∀ before : List (List (Key × Obj)), (∀ x ∈ before, dictGet x (nm "Root") = none ∧ dictGet x (nm "Encrypt") = none ∧ dictGet x (nm "Info") = none) →
      trailerLoop S.crypto pw (fun cipher => docResolver (S.docWith data cipher (secs.map Sec.pos)) cipher caching n {}) (before ++ t :: after) none [] = .error e := by
    intro before hbe
    induction before with
    | nil => rw [List.nil_append, trailerLoop, hic]
    | cons x before ih =>
      obtain ⟨h1, h2, h3⟩ := hbe x (by simp)
      rw [List.cons_append, trailerLoop, initCipher, h2]
      dsimp only
      rw [addInfo, show nameInfo = nm "Info" from rfl, h3]
      dsimp only
      rw [show nameRoot = nm "Root" from rfl, h1]
      exact ih fun y hy => hbe y (by simp [hy])
  rw [key before h3]

/-- **C93.** With a wrong password nothing is written: an exception is raised (a `NameError`, as `PDFPasswordIncorrect` is not imported). -/
theorem password_refused (S : Setup) (hb : 0 < S.bufsiz) (hm : ∀ x, (S.crypto.md5 x).length = 16) (hsha : ∀ x, (S.crypto.sha x).length = 32) (E : Bytes → Bytes → Bytes)
    (data : Bytes) (param : List (Key × Obj)) (ids : List Obj) (h : LockedWith S.fileDecode data param ids) (opts : Options) (pw : PyStr) (hpw : opts.password = some pw)
    (hr : Refuses S.crypto E param ids pw) : ∃ N, ∀ fuel ≥ N, convertText S opts fuel data = ([], some .nameError) := by
  refine (locked_closed hb h (some pw) (fun R hR => makeCipher_refused hm hsha hr R hR) opts.caching).mono fun n hn => ?_
  unfold convertText
  rw [hpw, hn]

/-- **C93.** Without a password no encrypted document is opened, not even one that has the empty user password, although the empty password is what a
reader tries first (ISO 32000-1, 7.6.3.1): the password `None` has no method `encode`. -/
theorem no_password_counterexample (S : Setup) (hb : 0 < S.bufsiz) (E : Bytes → Bytes → Bytes) (data : Bytes) (param : List (Key × Obj)) (ids : List Obj)
    (h : LockedWith S.fileDecode data param ids) (pw : PyStr) (L : Lock) (P : Int) (hu : Unlocks S.crypto E param ids pw L P) (opts : Options) (ho : opts.password = none) :
    ∃ N, ∀ fuel ≥ N, convertText S opts fuel data = ([], some .attributeError) := by
  refine (locked_closed hb h none (fun R hR => makeCipher_none hu R hR) opts.caching).mono fun n hn => ?_
  unfold convertText
  rw [ho, hn]

end Pdf
