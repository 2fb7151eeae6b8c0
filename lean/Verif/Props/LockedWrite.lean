import Verif.Spec.LockedWrite
import Verif.Props.EncryptedFile
import Verif.Props.TextFile
/-! C94: encrypted documents that are written are read. -/

namespace Pdf
open Spec

mutual
theorem mapStrings_decrypted (f : Bytes → Bytes) (r : Bytes → Bytes → Prop) (h : ∀ s, r (f s) s) : ∀ o, (∀ d b, o ≠ .stream d b) → WF o → Decrypted r (mapStrings f o) o
  | .str s, _, _ => .str (h s)
  | .arr l, _, hw => .arr (mapStringsList_decrypted f r h l hw)
  | .dict d, _, hw => .dict (mapStringsItems_decrypted f r h d hw.2)
  | .stream d b, hn, _ => absurd rfl (hn d b)
  | .null, _, _ => .other (by simp [mapStrings]) (by simp [mapStrings]) (by simp [mapStrings])
  | .bool _, _, _ => .other (by simp [mapStrings]) (by simp [mapStrings]) (by simp [mapStrings])
  | .int _, _, _ => .other (by simp [mapStrings]) (by simp [mapStrings]) (by simp [mapStrings])
  | .real _ _, _, _ => .other (by simp [mapStrings]) (by simp [mapStrings]) (by simp [mapStrings])
  | .name _, _, _ => .other (by simp [mapStrings]) (by simp [mapStrings]) (by simp [mapStrings])
  | .kw _, _, _ => .other (by simp [mapStrings]) (by simp [mapStrings]) (by simp [mapStrings])
  | .ref _ _, _, _ => .other (by simp [mapStrings]) (by simp [mapStrings]) (by simp [mapStrings])
theorem mapStringsList_decrypted (f : Bytes → Bytes) (r : Bytes → Bytes → Prop) (h : ∀ s, r (f s) s) : ∀ l, WFs l → DecryptedSeq r (mapStringsList f l) l
  | [], _ => .nil
  | o :: l, hw => .cons (mapStrings_decrypted f r h o (by rintro d b rfl; exact hw.1) hw.1) (mapStringsList_decrypted f r h l hw.2)
theorem mapStringsItems_decrypted (f : Bytes → Bytes) (r : Bytes → Bytes → Prop) (h : ∀ s, r (f s) s) : ∀ l, WFitems l → DecryptedItems r (mapStringsItems f l) l
  | [], _ => .nil
  | (k, o) :: l, hw => .cons (mapStrings_decrypted f r h o (by rintro d b rfl; exact hw.2.1) hw.2.1) (mapStringsItems_decrypted f r h l hw.2.2)
end

theorem mapStringsItems_keys (f : Bytes → Bytes) (d : List (Key × Obj)) : (mapStringsItems f d).map Prod.fst = d.map Prod.fst := by
  induction d with
  | nil => rfl
  | cons e d ih => obtain ⟨k, o⟩ := e; simp [mapStringsItems, ih]

mutual
theorem mapStrings_wf (f : Bytes → Bytes) : ∀ o, WF o → WF (mapStrings f o)
  | .str s, _ => trivial
  | .arr l, hw => mapStringsList_wf f l hw
  | .dict d, hw => ⟨by rw [mapStringsItems_keys]; exact hw.1, mapStringsItems_wf f d hw.2⟩
  | .stream d b, h => h
  | .null, h => h
  | .bool _, h => h
  | .int _, h => h
  | .real _ _, h => h
  | .name _, h => h
  | .kw _, h => h
  | .ref _ _, h => h
theorem mapStringsList_wf (f : Bytes → Bytes) : ∀ l, WFs l → WFs (mapStringsList f l)
  | [], _ => trivial
  | o :: l, hw => ⟨mapStrings_wf f o hw.1, mapStringsList_wf f l hw.2⟩
theorem mapStringsItems_wf (f : Bytes → Bytes) : ∀ l, WFitems l → WFitems (mapStringsItems f l)
  | [], _ => trivial
  | (k, o) :: l, hw => ⟨hw.1, mapStrings_wf f o hw.2.1, mapStringsItems_wf f l hw.2.2⟩
end

theorem sealable_plain {md5 key i o} (h : Sealable md5 key i o) (hs : ∀ d b, o ≠ .stream d b) : Writable o := by
  cases o <;> first | exact h | exact absurd rfl (hs _ _)

theorem writable_seal {md5 key i o} (h : Sealable md5 key i o) : Writable (sealObj md5 key i o) := by
  by_cases hs : ∃ d b, o = .stream d b
  · obtain ⟨d, b, rfl⟩ := hs
    exact ⟨h.1, h.2.1, h.2.2.2⟩
  · have hs : ∀ d b, o ≠ .stream d b := fun d b e => hs ⟨d, b, e⟩
    have hw := wf_of_writable (sealable_plain h hs) hs
    have := mapStrings_wf (rc4 (Spec.objectKey md5 key i 0 [])) o hw
    have hr := writable_direct (sealable_plain h hs)
    cases o <;> first | exact this | exact absurd rfl (hs _ _) | exact absurd rfl (hr _ _)

theorem sealObjs_get (md5 : Bytes → Bytes) (key : Bytes) (i : Nat) (objs : List Obj) (k : Nat) : (sealObjs md5 key i objs)[k]? = (objs[k]?).map (sealObj md5 key (i + k)) := by
  induction objs generalizing i k with
  | nil => rfl
  | cons o os ih =>
    cases k with
    | zero => rfl
    | succ k =>
      rw [sealObjs, List.getElem?_cons_succ, List.getElem?_cons_succ, ih, show i + 1 + k = i + (k + 1) by omega]

theorem sealObjs_length (md5 : Bytes → Bytes) (key : Bytes) (i : Nat) (objs : List Obj) : (sealObjs md5 key i objs).length = objs.length := by
  induction objs generalizing i with
  | nil => rfl
  | cons o os ih => simp [sealObjs, ih]

theorem writable_sealed {md5 key} {objs : List Obj} (h : ∀ k o, objs[k]? = some o → Sealable md5 key (k + 1) o) : ∀ o ∈ sealObjs md5 key 1 objs, Writable o := by
  intro o ho
  obtain ⟨k, hk⟩ := List.mem_iff_getElem?.1 ho
  rw [sealObjs_get] at hk
  cases hg : objs[k]? with
  | none => rw [hg] at hk; cases hk
  | some x =>
    rw [hg] at hk
    cases hk
    have := h k x hg
    rw [Nat.add_comm] at this
    exact writable_seal this

/-- The object as it is stored in the file, and what it is. -/
theorem sealed_written {md5 : Bytes → Bytes} {E : Bytes → Bytes → Bytes} {decode} {key : Bytes} {data : Bytes} {secs older : List Sec} {sec : Sec} {i p : Nat} (h0 : i ≠ 0)
    (hi : i < 4294967296) (hsec : secs = sec :: older) (hp : sec.pos i = .ok (none, p, 0)) {o : Obj} (h : Sealable md5 key i o)
    (hd : ∃ tail, data.drop p = writeObj i (sealObj md5 key i o) ++ tail) :
    ∃ o0, Hidden md5 E decode ⟨.v2, key, true⟩ data secs i 0 o0 ∧ Unsealed md5 E ⟨.v2, key, true⟩ i 0 o0 o := by
  obtain ⟨tail, hd⟩ := hd
  have hst : ∀ s, StoredString md5 E ⟨.v2, key, true⟩ i 0 (rc4 (Spec.objectKey md5 key i 0 []) s) s := fun s => ⟨i, 0, rfl, rfl, hi, by decide, .rc4⟩
  by_cases hs : ∃ d b, o = .stream d b
  · obtain ⟨d, body, rfl⟩ := hs
    obtain ⟨h1, h2, h3, h4⟩ := h
    generalize hr : rc4 (Spec.objectKey md5 key i 0 []) body = raw at h4
    have hl : raw.length = body.length := by rw [← hr]; exact (rc4_involution _ _).2
    have hd' : data.drop p = printToks ([.int i, .int 0, .kw kwObj] ++ objToks (.dict d)) ++ (kwStream ++ ([10] ++ (raw ++ [] ++
      (kwEndstream ++ ([10] ++ (kwEndobj ++ ([10] ++ tail))))))) := by
      rw [hd, sealObj, hr]
      show printToks ([.int i, .int 0, .kw kwObj] ++ objToks (.dict d)) ++ (kwStream ++ ([10] ++ (raw ++
        (kwEndstream ++ ([10] ++ (kwEndobj ++ [10])))))) ++ tail = _
      simp
    obtain ⟨pts, g1, g2⟩ := text_print _ (printable_body i h1) p (kwStream ++ ([10] ++ (raw ++ [] ++ (kwEndstream ++ ([10] ++ (kwEndobj ++ ([10] ++ tail)))))))
    obtain ⟨ets, g3, g4⟩ := text_end (p + (printToks ([.int i, .int 0, .kw kwObj] ++ objToks (.dict d))).length + kwStream.length + [(10 : UInt8)].length + (raw ++ []).length) tail
    refine ⟨.stream d raw, .stream (newer := []) (by exact_mod_cast h0) hsec (by simp) hp hd' g2 g1 (writes_obj rfl _ h1) .lf (by rw [hl]; exact h3) (by simp) (by simp) g3 g4 (stream_unfinished (by simp)), .stream (.inr ⟨.inl rfl, ?_⟩)⟩
    rw [← hr]
    exact hst body
  · have hs : ∀ d b, o ≠ .stream d b := fun d b e => hs ⟨d, b, e⟩
    have hw := sealable_plain h hs
    have hw' := wf_of_writable hw hs
    have e : sealObj md5 key i o = mapStrings (rc4 (Spec.objectKey md5 key i 0 [])) o := by
      cases o <;> first | rfl | exact absurd rfl (hs _ _)
    have hm := mapStrings_wf (rc4 (Spec.objectKey md5 key i 0 [])) o hw'
    have hms : ∀ d b, mapStrings (rc4 (Spec.objectKey md5 key i 0 [])) o ≠ .stream d b := by
      intro d b hc
      rw [hc] at hm
      exact hm
    rw [e, writeObj_plain i _ hms, List.append_assoc] at hd
    obtain ⟨pts, g1, g2⟩ := text_print _ (printable_whole i hm) p ([10] ++ tail)
    exact ⟨o, .plain (newer := []) (by exact_mod_cast h0) hsec (by simp) hp hd g2 g1 (writes_obj rfl _ hm) (mapStrings_decrypted _ _ hst o hs hw'), .other hs⟩

/-- The objects of an encrypted file that was written. -/
theorem locked_objects {md5 : Bytes → Bytes} {E : Bytes → Bytes → Bytes} (decode) {key : Bytes} (objs : List Obj) (trailer : List (Key × Obj)) (hn : objs.length < 4294967295)
    (ho : ∀ k o, objs[k]? = some o → Sealable md5 key (k + 1) o) :
    LockedObjects md5 E decode ⟨.v2, key, true⟩ (writeFile (sealObjs md5 key 1 objs) trailer)
      ([⟨tablePos ((0, none) :: tableEntries 1 9 (sealObjs md5 key 1 objs)), trailer⟩] ++ [⟨scanned (places 1 9 (sealObjs md5 key 1 objs)), trailer⟩]) (numbered 1 objs) := by
  have hsome : ∀ j o, dictGet (numbered 1 objs) j = some o → ∃ k : Nat, j = ((1 + k : Nat) : Int) ∧ objs[k]? = some o := by
    intro j o hg
    have := entries_find 1 9 objs j
    rw [hg] at this
    obtain ⟨a, b, h1, rfl, _⟩ := this
    exact ⟨a.length, rfl, by rw [h1]; simp⟩
  have h9 : (writeFile (sealObjs md5 key 1 objs) trailer).drop 9 = writeObjs 1 (sealObjs md5 key 1 objs) ++ (asc "xref\n" ++ ((tableLines (sealObjs md5 key 1 objs)).flatten ++ writeTrailer trailer (writeBody (sealObjs md5 key 1 objs)).length)) := by
    have := drop_at (data := writeFile (sealObjs md5 key 1 objs) trailer) (p := 0) (asc "%PDF-1.4\n") (b := writeObjs 1 (sealObjs md5 key 1 objs) ++ (asc "xref\n" ++ ((tableLines (sealObjs md5 key 1 objs)).flatten ++ writeTrailer trailer (writeBody (sealObjs md5 key 1 objs)).length)))
      (by simp only [List.drop_zero, writeFile, writeBody, List.append_assoc])
    rw [show 0 + (asc "%PDF-1.4\n").length = 9 from rfl] at this
    exact this
  refine ⟨?_, ?_, ?_⟩
  · intro j o hg
    obtain ⟨k, rfl, hk⟩ := hsome j o hg
    refine ⟨by push_cast; omega, 0, ?_⟩
    have hlen : k < objs.length := (List.getElem?_eq_some_iff.1 hk).1
    have hs := ho k o hk
    rw [Nat.add_comm] at hs
    have hg' : dictGet (numbered 1 (sealObjs md5 key 1 objs)) ((1 + k : Nat) : Int) = some (sealObj md5 key (1 + k) o) := by
      rw [numbered_get, sealObjs_get, hk]; rfl
    have := entries_find 1 9 (sealObjs md5 key 1 objs) ((1 + k : Nat) : Int)
    rw [hg'] at this
    obtain ⟨a, b, h1, h2, h3, h4⟩ := this
    have ha : a.length = k := by omega
    refine sealed_written (i := 1 + k) (p := 9 + (writeObjs 1 a).length) (by omega) (by omega) rfl ?_ hs ?_
    · simp only [tablePos, lastUsed, h4]; rfl
    · rw [h1, writeObjs_append, writeObjs, List.append_assoc, List.append_assoc] at h9
      have := drop_at _ h9
      rw [ha] at this
      exact ⟨_, h1 ▸ this⟩
  · intro j o hg
    obtain ⟨k, rfl, hk⟩ := hsome j o hg
    rintro i g rfl
    exact ho k _ hk
  · intro j hg sec hsec
    have hg' : dictGet (numbered 1 (sealObjs md5 key 1 objs)) j = none := by
      by_cases hj : j < 1 ∨ (1 + objs.length : Nat) ≤ j
      · exact numbered_none 1 _ j (by rw [sealObjs_length]; exact hj)
      · obtain ⟨k, rfl⟩ : ∃ k : Nat, j = ((1 + k : Nat) : Int) := ⟨(j - 1).toNat, by omega⟩
        rw [numbered_get] at hg
        have : objs.length ≤ k := List.getElem?_eq_none_iff.1 hg
        omega
    have := entries_find 1 9 (sealObjs md5 key 1 objs) j
    rw [hg'] at this
    obtain ⟨h1, h2⟩ := this
    simp only [List.cons_append, List.nil_append, List.mem_cons, List.not_mem_nil, or_false] at hsec
    rcases hsec with rfl | rfl
    · simp only [tablePos, lastUsed, h2]
      split
      · rename_i e; split at e <;> cases e
      · rfl
    · simp only [scanned, h1]

/-! ### Documents -/

theorem dict_entries (p : Protection) (md5 : Bytes → Bytes) (hv : p.Valid) : PasswordEntries md5 (p.dict md5) p.r p.n false p.id0 p.user p.owner p.filler (p.entryO md5) p.P :=
  ⟨rfl, rfl, rfl, hv.range, rfl, rfl, rfl, hv.size⟩

theorem protection_unlocks (C : Crypto) (E : Bytes → Bytes → Bytes) (p : Protection) (hv : p.Valid) (pw : PyStr) (ho : p.Opens C.md5 pw) (more : List Obj) :
    Unlocks C E (p.dict C.md5) (.str p.id0 :: more) pw ⟨.v2, p.key C.md5, true⟩ p.P :=
  .rc4 (v := if p.r = 2 then 1 else 2) (by split <;> simp) hv.revision rfl (dict_entries p C.md5 hv) (.inl rfl) ho

theorem trailer_wf (p : Protection) (md5 : Bytes → Bytes) (size : Nat) (root : Obj) (hr : WF root) : WF (.dict (p.trailer md5 size root)) := by
  refine ⟨?_, ⟨_, rfl⟩, trivial, ⟨_, rfl⟩, hr, ⟨_, rfl⟩, ⟨?_, ⟨_, rfl⟩, trivial, ⟨_, rfl⟩, trivial, ⟨_, rfl⟩, trivial, ⟨_, rfl⟩, trivial, ⟨_, rfl⟩, trivial, ⟨_, rfl⟩, trivial,
    ⟨_, rfl⟩, trivial, trivial⟩, ⟨_, rfl⟩, ⟨trivial, trivial, trivial⟩, trivial⟩
  · show [nm "Size", nm "Root", nm "Encrypt", nm "ID"].Nodup
    decide
  · show [nm "Filter", nm "V", nm "R", nm "Length", nm "P", nm "O", nm "U"].Nodup
    decide

theorem trailer_none (p : Protection) (md5 : Bytes → Bytes) (size : Nat) (root : Obj) {k : Key} (h : k ∉ [nm "Size", nm "Root", nm "Encrypt", nm "ID"]) :
    dictGet (p.trailer md5 size root) k = none := by
  simp only [List.mem_cons, List.not_mem_nil, or_false, not_or] at h
  simp only [Protection.trailer, dictGet]
  rw [if_neg (Ne.symm h.1), if_neg (Ne.symm h.2.1), if_neg (Ne.symm h.2.2.1), if_neg (Ne.symm h.2.2.2)]

/-- **C94.** An encrypted file that was written is opened with a password of its author: every object is what was written. -/
theorem locked_file (S : Setup) (hb : 0 < S.bufsiz) (hm : ∀ x, (S.crypto.md5 x).length = 16) (hsha : ∀ x, (S.crypto.sha x).length = 32) (E : Bytes → Bytes → Bytes)
    (hc : BlockCipher E S.crypto.aes) (p : Protection) (hv : p.Valid) (pw : PyStr) (hpw : p.Opens S.crypto.md5 pw) (objs : List Obj) (hn : objs.length < 4294967295)
    (ho : ∀ k o, objs[k]? = some o → Sealable S.crypto.md5 (p.key S.crypto.md5) (k + 1) o) {r : Nat} {g : Int} {catalog : List (Key × Obj)}
    (hcat : objs[r]? = some (.dict catalog)) (caching : Bool) : ReadBack S (some pw) caching (writeLocked S.crypto.md5 p objs (.ref (r + 1 : Nat) g)) objs catalog := by
  have hroot : (fileResolver (numbered 1 objs)).resolve1 (.ref (r + 1 : Nat) g) = .ok (.dict catalog) := by
    have := numbered_get 1 objs r
    rw [Nat.add_comm] at this
    simp only [fileResolver]
    rw [if_neg (by push_cast; omega), this, hcat]
    rfl
  have hnone : ∀ {k : Key}, k ∉ [nm "Size", nm "Root", nm "Encrypt", nm "ID"] → dictGet (p.trailer S.crypto.md5 (objs.length + 1) (.ref (r + 1 : Nat) g)) k = none :=
    fun h => trailer_none p _ _ _ h
  refine (locked_open hb hm hsha hc (written_sections S.fileDecode (sealObjs S.crypto.md5 (p.key S.crypto.md5) 1 objs) (p.trailer S.crypto.md5 (objs.length + 1) (.ref (r + 1 : Nat) g)) (writable_sealed ho)
    (trailer_wf p S.crypto.md5 _ (.ref (r + 1 : Nat) g) trivial) (hnone (by decide)) (hnone (by decide))) (before := []) (t := p.trailer S.crypto.md5 (objs.length + 1) (.ref (r + 1 : Nat) g)) rfl (by simp) rfl (.direct (by simp)) rfl (.direct (by simp))
    (protection_unlocks S.crypto E p hv pw hpw _) (locked_objects S.fileDecode objs _ hn ho) rfl (by rw [hnone (by decide)]; simp) hroot caching).mono ?_
  rintro n ⟨O, c, h1, _, _, h2, h3⟩
  refine ⟨O, h1, h2, fun k o hk => ?_, fun j hj => ?_⟩
  · rw [h3]
    have := numbered_get 1 objs k
    rw [Nat.add_comm] at this
    simp only [fileResolver]
    rw [if_neg (by omega), show (k : Int) + 1 = ((k + 1 : Nat) : Int) by push_cast; rfl, this, hk]
  · rw [h3]
    simp only [fileResolver]
    rw [if_neg (by omega), numbered_none 1 objs j (by rcases hj with hj | hj <;> [left; right] <;> push_cast <;> omega)]

theorem pageObjs_length (j : Nat) (ps : List (List Bytes)) : (pageObjs j ps).length = 2 * ps.length := by
  induction ps generalizing j with
  | nil => rfl
  | cons p ps ih => simp only [pageObjs, List.length_cons, ih]; omega

/-- The objects of a text file can be written encrypted. -/
theorem sealable_text (md5 : Bytes → Bytes) (key : Bytes) (pages : List (List Bytes))
    (he : ∀ k lines, pages[k]? = some lines → ¬ asc "endstream" <:+: rc4 (Spec.objectKey md5 key (2 * k + 5) 0 []) (printToks (textToks lines))) :
    ∀ k o, (textObjs helvetica pages)[k]? = some o → Sealable md5 key (k + 1) o := by
  have hw := writable_text helvetica helvetica_wf pages
  intro k o hk
  have hwo := hw o (List.mem_of_getElem? hk)
  match k, hk with
  | 0, hk => cases hk; exact hwo
  | 1, hk => cases hk; exact hwo
  | 2, hk => cases hk; exact hwo
  | k + 3, hk =>
    have hk : (pageObjs 0 pages)[k]? = some o := hk
    have hlt : k < 2 * pages.length := by rw [← pageObjs_length 0]; exact (List.getElem?_eq_some_iff.1 hk).1
    have hg : pages[k / 2]? = some (pages[k / 2]'(by omega)) := List.getElem?_eq_getElem _
    obtain ⟨f1, f2⟩ := pageObjs_get 0 pages (k / 2) _ hg
    rcases Nat.mod_two_eq_zero_or_one k with hm2 | hm2
    · rw [show 2 * (k / 2) = k by omega, hk] at f1
      cases f1
      exact hwo
    · rw [show 2 * (k / 2) + 1 = k by omega, hk] at f2
      cases f2
      refine ⟨hwo.1, hwo.2.1, rfl, ?_⟩
      have := he (k / 2) _ hg
      rw [show 2 * (k / 2) + 5 = k + 3 + 1 by omega] at this
      exact this

/-- **C94.** Text in an encrypted file that was written is extracted with a password of its author, if the permissions allow it. -/
theorem locked_text (S : Setup) (h : Furnished S) (hm : ∀ x, (S.crypto.md5 x).length = 16) (hsha : ∀ x, (S.crypto.sha x).length = 32) (E : Bytes → Bytes → Bytes)
    (hc : BlockCipher E S.crypto.aes) (p : Protection) (hv : p.Valid) (opts : Options) (pw : PyStr) (hpw : p.Opens S.crypto.md5 pw) (hop : opts.password = some pw)
    (hx : opts.checkExtractable = false ∨ permission p.P 5 = true) (pages : List (List Bytes)) (texts : List PyStr) (hl : pages.length < 2147483646)
    (hn : ∀ lines ∈ pages, ∀ s ∈ lines, s ≠ []) (hp : List.Forall₂ (fun lines t => ∃ ts, List.Forall₂ WinText lines ts ∧ t = ts.flatten) pages texts)
    (he : ∀ k lines, pages[k]? = some lines →
      ¬ asc "endstream" <:+: rc4 (Spec.objectKey S.crypto.md5 (p.key S.crypto.md5) (2 * k + 5) 0 []) (printToks (textToks lines)))
    (maxpages : Nat) (hmax : opts.maxpages = maxpages) (shown : List PyStr)
    (hs : shown = (texts.zipIdx.filter fun x => decide (Wanted opts.pagenos x.2 ∧ ∀ j < x.2, Wanted opts.pagenos j → maxpages = 0 ∨ j + 1 < maxpages)).map Prod.fst)
    (hne : shown ≠ []) : ∃ N, ∀ fuel ≥ N, convertText S opts fuel (writeLocked S.crypto.md5 p (textObjs helvetica pages) (.ref 1 0)) = (textOf 0 shown, none) := by
  refine encrypted_text S h.bufsiz hm hsha E hc _ opts pw hop texts p.P ?_ hx maxpages hmax shown hs hne
  obtain ⟨g1, g2, g3⟩ := text_pages S helvetica opts.ignoreBad pages texts (helvetica_lines S h opts.ignoreBad pages texts hn hp)
  have ho := sealable_text S.crypto.md5 (p.key S.crypto.md5) pages he
  have hnone : ∀ {k : Key}, k ∉ [nm "Size", nm "Root", nm "Encrypt", nm "ID"] →
      dictGet (p.trailer S.crypto.md5 ((textObjs helvetica pages).length + 1) (.ref 1 0)) k = none := fun h => trailer_none p _ _ _ h
  refine ⟨_, numbered 1 (textObjs helvetica pages), [], p.trailer S.crypto.md5 ((textObjs helvetica pages).length + 1) (.ref 1 0), [p.trailer S.crypto.md5 ((textObjs helvetica pages).length + 1) (.ref 1 0)],
    .dict (p.dict S.crypto.md5), p.dict S.crypto.md5, .arr [.str p.id0, .str p.id0], [.str p.id0, .str p.id0], _, .ref 1 0, catalogDict, .ref 2 0, textTree pages,
    written_sections S.fileDecode (sealObjs S.crypto.md5 (p.key S.crypto.md5) 1 (textObjs helvetica pages)) _ (writable_sealed ho) (trailer_wf p S.crypto.md5 _ (.ref 1 0) trivial)
      (hnone (by decide)) (hnone (by decide)), rfl, by simp, rfl, .direct (by simp), rfl, .direct (by simp), protection_unlocks S.crypto E p hv pw hpw _,
    locked_objects S.fileDecode _ _ ?_ ho, rfl, by rw [hnone (by decide)]; simp, g1, rfl, g2, g3⟩
  simp only [textObjs, List.length_cons, pageObjs_length]
  omega

/-- A file that was written encrypted has the encryption dictionary. -/
theorem written_locked (decode) (md5 : Bytes → Bytes) (p : Protection) (objs : List Obj) (ho : ∀ k o, objs[k]? = some o → Sealable md5 (p.key md5) (k + 1) o) (root : Obj) (hr : WF root) :
    LockedWith decode (writeLocked md5 p objs root) (p.dict md5) [.str p.id0, .str p.id0] := by
  have hnone : ∀ {k : Key}, k ∉ [nm "Size", nm "Root", nm "Encrypt", nm "ID"] → dictGet (p.trailer md5 (objs.length + 1) root) k = none := fun h => trailer_none p _ _ _ h
  exact ⟨_, [], p.trailer md5 (objs.length + 1) root, [p.trailer md5 (objs.length + 1) root], .dict (p.dict md5), .arr [.str p.id0, .str p.id0],
    written_sections decode (sealObjs md5 (p.key md5) 1 objs) _ (writable_sealed ho) (trailer_wf p md5 _ root hr) (hnone (by decide)) (hnone (by decide)), rfl, by simp, rfl,
    .direct (by simp), rfl, .direct (by simp)⟩

/-- **C94.** A file that was written encrypted is not read with another password: nothing is written. -/
theorem locked_refused (S : Setup) (hb : 0 < S.bufsiz) (hm : ∀ x, (S.crypto.md5 x).length = 16) (hsha : ∀ x, (S.crypto.sha x).length = 32) (p : Protection) (hv : p.Valid)
    (objs : List Obj) (ho : ∀ k o, objs[k]? = some o → Sealable S.crypto.md5 (p.key S.crypto.md5) (k + 1) o) (root : Obj) (hr : WF root) (opts : Options) (pw : PyStr)
    (hpw : opts.password = some pw) (hno : RefusedBy S.crypto.md5 p.r p.n false p.id0 p.user p.filler (p.entryO S.crypto.md5) p.P pw) :
    ∃ N, ∀ fuel ≥ N, convertText S opts fuel (writeLocked S.crypto.md5 p objs root) = ([], some .nameError) :=
  password_refused S hb hm hsha (fun _ b => b) _ _ _ (written_locked S.fileDecode S.crypto.md5 p objs ho root hr) opts pw hpw
    (.rc4 (v := if p.r = 2 then 1 else 2) (by split <;> simp) hv.revision rfl (dict_entries p S.crypto.md5 hv) (.inl rfl) hno)

/-! ### Examples -/

/-- Passwords `ab` and `xy`; bit 5 of the permissions is set. -/
def sampleProtection : Protection := ⟨2, 5, [97, 98], [120, 121], -44, [1, 2], []⟩

theorem sampleProtection_valid : sampleProtection.Valid := ⟨.inl rfl, by decide, by decide⟩

/-- The permissions -44 allow the extraction. -/
example : permission sampleProtection.P 5 = true := by decide

theorem toy_cipher : BlockCipher (fun k b => xorBlock b ((k ++ List.replicate 16 0).take 16)) (fun k b => xorBlock b ((k ++ List.replicate 16 0).take 16)) := by
  refine ⟨fun k b hb => ?_, fun k b hb => ?_⟩
  · simp [xorBlock, hb]
  · exact xorBlock_xorBlock _ _ (by simp [hb])

theorem toy_hash32 (x : Bytes) : (toyHash32 x).length = 32 := by simp [toyHash32, toyHash_length]

/-- The entry `O` of the sample. -/
def sampleOwner : Bytes := [184, 28, 242, 22, 220, 171, 28, 219, 158, 35, 83, 69, 156, 226, 4, 88, 3, 169, 37, 89, 241, 116, 246, 22, 248, 200, 175, 18, 130, 101, 249, 215]

/-- What the password `abc` makes of it. -/
def sampleOther : Bytes := [89, 162, 225, 72, 243, 72, 109, 51, 233, 240, 69, 205, 49, 117, 24, 0, 227, 13, 140, 35, 120, 115, 169, 99, 191, 45, 12, 253, 239, 163, 54, 176]

theorem sample_ownerEntry : sampleProtection.entryO toyHash = sampleOwner := by decide +kernel

theorem sample_opens : sampleProtection.Opens toyHash (pstr "ab") ∧ sampleProtection.Opens toyHash (pstr "xy") := by
  refine ⟨⟨by decide +kernel, .inl (by decide +kernel)⟩, ⟨by decide +kernel, .inr ⟨by decide +kernel, ?_⟩⟩⟩
  rw [sample_ownerEntry]
  show sameU 2 (entryU toyHash 2 (fileKey toyHash 2 5 false [97, 98] sampleOwner (-44) [1, 2]) [1, 2] []) (entryU toyHash 2 (fileKey toyHash 2 5 false [120, 121] sampleOwner (-44) [1, 2]) [1, 2] []) = false
  rw [show fileKey toyHash 2 5 false [97, 98] sampleOwner (-44) [1, 2] = [70, 166, 195, 195, 195] by decide +kernel,
    show fileKey toyHash 2 5 false [120, 121] sampleOwner (-44) [1, 2] = [70, 194, 241, 241, 241] by decide +kernel]
  decide +kernel

theorem sample_refused : RefusedBy toyHash 2 5 false [1, 2] [97, 98] [] (sampleProtection.entryO toyHash) (-44) (pstr "abc") := by
  rw [sample_ownerEntry]
  refine ⟨by decide +kernel, ?_⟩
  rw [show (pstr "abc").map (fun c => UInt8.ofNat c) = [97, 98, 99] by decide +kernel, show recoveredUser toyHash 2 5 [97, 98, 99] sampleOwner = sampleOther by decide +kernel]
  intro t ht
  rw [show fileKey toyHash 2 5 false [97, 98] sampleOwner (-44) [1, 2] = [70, 166, 195, 195, 195] by decide +kernel]
  simp only [List.mem_cons, List.not_mem_nil, or_false] at ht
  rcases ht with rfl | rfl
  · rw [show fileKey toyHash 2 5 false [97, 98, 99] sampleOwner (-44) [1, 2] = [70, 150, 211, 211, 211] by decide +kernel]
    decide +kernel
  · rw [show fileKey toyHash 2 5 false sampleOther sampleOwner (-44) [1, 2] = [70, 178, 223, 223, 223] by decide +kernel]
    decide +kernel

theorem sample_key : sampleProtection.key toyHash = [70, 166, 195, 195, 195] := by decide +kernel

theorem sample_stored : rc4 (Spec.objectKey toyHash [70, 166, 195, 195, 195] 5 0 []) (printToks (textToks [asc "Hi"])) =
    [254, 230, 207, 192, 230, 109, 132, 37, 57, 190, 120, 8, 101, 88, 93, 167, 204, 45, 73, 194, 3, 196, 40, 116, 89, 253, 225, 75, 44, 48, 213, 171, 196, 141, 178, 41, 151, 105, 173] := by
  decide +kernel

theorem sample_no_end : ∀ k lines, [[asc "Hi"]][k]? = some lines →
    ¬ asc "endstream" <:+: rc4 (Spec.objectKey toyHash (sampleProtection.key toyHash) (2 * k + 5) 0 []) (printToks (textToks lines)) := by
  intro k lines hk
  match k, hk with
  | 0, hk =>
    cases hk
    show ¬ asc "endstream" <:+: rc4 (Spec.objectKey toyHash (sampleProtection.key toyHash) 5 0 []) (printToks (textToks [asc "Hi"]))
    rw [sample_key, sample_stored]
    decide +kernel
  | k + 1, hk => cases hk

/-- One page with one line, read with the user password or the owner password. -/
example (pw : PyStr) (h : pw = pstr "ab" ∨ pw = pstr "xy") : ∃ N, ∀ fuel ≥ N,
    convertText sampleSetup { password := some pw } fuel (writeLocked toyHash sampleProtection (textObjs helvetica [[asc "Hi"]]) (.ref 1 0)) = (textOf 0 [pstr "Hi"], none) := by
  refine locked_text sampleSetup sample_furnished toyHash_length toy_hash32 _ toy_cipher sampleProtection sampleProtection_valid _ pw
    (by rcases h with rfl | rfl <;> [exact sample_opens.1; exact sample_opens.2]) rfl
    (.inr (by decide)) [[asc "Hi"]] [pstr "Hi"] (by decide) (by decide +kernel) ?_ ?_ 0 rfl _ ?_ (by decide +kernel)
  · exact .cons ⟨[pstr "Hi"], .cons (by rw [show pstr "Hi" = (asc "Hi").map UInt8.toNat by decide +kernel]; exact ascii_text (by decide +kernel)) .nil, by simp⟩ .nil
  · exact sample_no_end
  · show [pstr "Hi"] = (([pstr "Hi"].zipIdx).filter fun x => decide (Wanted [] x.2 ∧ ∀ j < x.2, Wanted [] j → 0 = 0 ∨ j + 1 < 0)).map Prod.fst
    decide +kernel

/-- The same file with another password, or with none. -/
example : (∃ N, ∀ fuel ≥ N, convertText sampleSetup { password := some (pstr "abc") } fuel (writeLocked toyHash sampleProtection (textObjs helvetica [[asc "Hi"]]) (.ref 1 0)) =
      ([], some .nameError)) ∧
    ∃ N, ∀ fuel ≥ N, convertText sampleSetup {} fuel (writeLocked toyHash sampleProtection (textObjs helvetica [[asc "Hi"]]) (.ref 1 0)) = ([], some .attributeError) :=
  ⟨locked_refused sampleSetup (by decide) toyHash_length toy_hash32 sampleProtection sampleProtection_valid _ (sealable_text _ _ _ sample_no_end) (.ref 1 0) trivial _ (pstr "abc") rfl sample_refused,
   no_password_counterexample sampleSetup (by decide) (fun _ b => b) _ _ _ (written_locked _ toyHash sampleProtection _ (sealable_text _ _ _ sample_no_end) (.ref 1 0) trivial) (pstr "ab") _ _
    (protection_unlocks sampleSetup.crypto (fun _ b => b) sampleProtection sampleProtection_valid (pstr "ab") sample_opens.1 [.str [1, 2]]) {} rfl⟩

end Pdf
