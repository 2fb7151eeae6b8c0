import Verif.Spec.SameObjects
import Verif.Props.EncryptedFile
import Verif.Props.LockedWrite
import Verif.Props.Outputs
/-! Only the objects of a document count (C113): however they are stored, with or without encryption, intact or recovered, what is delivered and what the converters write
is the same. -/

namespace Pdf
open Spec

/-- A file that can be read is opened, with its catalogue and its objects. -/
theorem readable_open {S : Setup} (hb : 0 < S.bufsiz) (hm : ∀ x, (S.crypto.md5 x).length = 16) (hsha : ∀ x, (S.crypto.sha x).length = 32) {E : Bytes → Bytes → Bytes}
    (hc : BlockCipher E S.crypto.aes) {opts : Options} {data : Bytes} {objs : List (Int × Obj)} {catalog : List (Key × Obj)} (h : Readable S E opts data objs catalog) :
    Evt fun n => ∃ O, openDocument S opts.password opts.caching n data = .ok O ∧ refused opts.checkExtractable O.cipher = false ∧ O.catalog = catalog ∧
      O.resolver opts.caching n = fileResolver objs := by
  cases h with
  | plain h =>
    obtain ⟨secs, before, t, after, root, h1, h2, h3, h4, h5, h6, h7, h8⟩ := h
    refine (document_open hb h1 h2 h3 h4 h5 h6 h7 h8 opts.password opts.caching).mono ?_
    rintro n ⟨O, k1, k2, k3, k4⟩
    exact ⟨O, k1, by rw [k2]; rfl, k3, k4⟩
  | @locked pw P hpw h hx =>
    obtain ⟨secs, before, t, after, enc, param, idv, ids, L, root, h1, h2, h3, h4, h5, h6, h7, h8, h9, h10, h11, h12⟩ := h
    rw [hpw]
    refine (locked_open hb hm hsha hc h1 h2 h3 h4 h5 h6 h7 h8 h9 h10 h11 h12 opts.caching).mono ?_
    rintro n ⟨O, c, k1, k2, k3, k4, k5⟩
    refine ⟨O, k1, ?_, k4, k5⟩
    rw [k2, refused, cipher_extractable, k3]
    rcases hx with hx | hx <;> simp [hx]

/-- With a page tree that has a page, the numbers of all objects are not asked for. -/
theorem pages_tree_only {objs : List (Int × Obj)} {catalog : List (Key × Obj)} (h : HasPage objs catalog) :
    Evt fun n => ∀ ids ids', createPages (fileResolver objs) catalog ids n = createPages (fileResolver objs) catalog ids' n := by
  obtain ⟨o, T, ho, hT, hne⟩ := h
  have hcat : ∀ k, Spec.Inherited k → dictGet catalog k = [catalog].findSome? fun d => dictGet d k := by
    intro k _
    rw [List.findSome?_cons]
    cases dictGet catalog k <;> rfl
  obtain ⟨N, items, h1, h2⟩ := search_tree (fileResolver objs) hT catalog [catalog] hcat
  refine ⟨N, fun n hn ids ids' => ?_⟩
  unfold createPages
  rw [ho]
  dsimp only
  rw [h1 n hn]
  have hi : items ≠ [] := by
    rintro rfl
    cases h2' : T.leaves [catalog] with
    | nil => exact hne h2'
    | cons a l => rw [h2'] at h2; cases h2
  obtain ⟨x, xs, rfl⟩ : ∃ x xs, items = x :: xs := by
    cases items with
    | nil => exact absurd rfl hi
    | cons x xs => exact ⟨x, xs, rfl⟩
  have key : ∀ (f : Int × List (Key × Obj) → Except PyErr Page) e, ¬ ((Gen.mapE f (x :: xs) e).1 = [] ∧ (Gen.mapE f (x :: xs) e).2 = none) := by
    intro f e
    simp only [Gen.mapE]
    rcases f x with e' | y
    · simp
    · simp
  rw [if_neg (key _ _), if_neg (key _ _)]

/-! ## C113 -/

/-- **C113.** Two files with the same objects and the same catalogue, with at least one page, give the same pages, with the same items, and the same exception if there is
one. The files may differ in everything else: the order of the objects, cross-reference tables and streams, updates, object streams, damage, encryption. -/
theorem same_objects {S : Setup} (hb : 0 < S.bufsiz) (hm : ∀ x, (S.crypto.md5 x).length = 16) (hsha : ∀ x, (S.crypto.sha x).length = 32) {E : Bytes → Bytes → Bytes}
    (hc : BlockCipher E S.crypto.aes) {opts opts' : Options} {data data' : Bytes} {objs objs' : List (Int × Obj)} {catalog : List (Key × Obj)}
    (h : Readable S E opts data objs catalog) (h' : Readable S E opts' data' objs' catalog) (he : ∀ i, dictGet objs i = dictGet objs' i) (hp : HasPage objs catalog)
    (ho : SameRequest opts opts') : ∃ N, ∀ fuel ≥ N, deliver S opts fuel data = deliver S opts' fuel data' := by
  have hr : fileResolver objs = fileResolver objs' := by
    unfold fileResolver
    simp only [he]
  refine ((readable_open hb hm hsha hc h).and ((readable_open hb hm hsha hc h').and (pages_tree_only hp))).mono ?_
  rintro n ⟨⟨O, a1, a2, a3, a4⟩, ⟨O', b1, b2, b3, b4⟩, hpg⟩
  unfold deliver
  rw [a1, b1]
  dsimp only
  rw [a2, b2, a4, b4, a3, b3, ← hr, ho.1, ho.2.1, ho.2.2, hpg O.objids O'.objids]

/-- **C113 for the files that are written.** All five converters write the same. -/
theorem same_output {S : Setup} (hb : 0 < S.bufsiz) (hm : ∀ x, (S.crypto.md5 x).length = 16) (hsha : ∀ x, (S.crypto.sha x).length = 32) {E : Bytes → Bytes → Bytes}
    (hc : BlockCipher E S.crypto.aes) {opts opts' : Options} {data data' : Bytes} {objs objs' : List (Int × Obj)} {catalog : List (Key × Obj)}
    (h : Readable S E opts data objs catalog) (h' : Readable S E opts' data' objs' catalog) (he : ∀ i, dictGet objs i = dictGet objs' i) (hp : HasPage objs catalog)
    (ho : SameRequest opts opts') : ∃ N, ∀ fuel ≥ N, convertText S opts fuel data = convertText S opts' fuel data' ∧
      (∀ env, convertJson env S opts fuel data = convertJson env S opts' fuel data') ∧ (∀ env, convertYaml env S opts fuel data = convertYaml env S opts' fuel data') ∧
      (∀ env codec, convertXml env codec S opts fuel data = convertXml env codec S opts' fuel data') ∧
      (∀ env codec, convertHtml env codec S opts fuel data = convertHtml env codec S opts' fuel data') := by
  obtain ⟨N, hN⟩ := same_objects hb hm hsha hc h h' he hp ho
  refine ⟨N, fun fuel hf => ?_⟩
  have e := hN fuel hf
  refine ⟨?_, fun env => ?_, fun env => ?_, fun env codec => ?_, fun env codec => ?_⟩
  · rw [convertText_deliver, convertText_deliver, e]
  · unfold convertJson; rw [e]
  · unfold convertYaml; rw [e]
  · unfold convertXml; rw [e]
  · unfold convertHtml; rw [e]

theorem numbered_root {objs : List Obj} {r : Nat} {g : Int} {catalog : List (Key × Obj)} (hcat : objs[r]? = some (.dict catalog)) :
    (fileResolver (numbered 1 objs)).resolve1 (.ref (r + 1 : Nat) g) = .ok (.dict catalog) := by
  have := numbered_get 1 objs r
  rw [Nat.add_comm] at this
  simp only [fileResolver]
  rw [if_neg (by push_cast; omega), this, hcat]
  rfl

/-- What is written with a cross-reference table is such a file. -/
theorem plain_written (S : Setup) {objs : List Obj} (ho : ∀ o ∈ objs, Spec.Writable o) {r : Nat} {g : Int} {catalog : List (Key × Obj)} (hcat : objs[r]? = some (.dict catalog)) :
    PlainFile S (Spec.writeFile objs [(nm "Root", .ref (r + 1 : Nat) g)]) (numbered 1 objs) catalog := by
  have hg : ∀ {k : Key}, k ≠ nm "Root" → dictGet [(nm "Root", Obj.ref (r + 1 : Nat) g)] k = none := fun h => by
    simp only [dictGet]
    rw [if_neg (Ne.symm h)]
  refine ⟨_, [], [(nm "Root", .ref (r + 1 : Nat) g)], _, _,
    written_sections S.fileDecode objs _ ho ⟨by simp, ⟨_, rfl⟩, trivial, trivial⟩ (hg (by decide)) (hg (by decide)), written_objects S.fileDecode objs _ ho, rfl, by simp, rfl, ?_, ?_, numbered_root hcat⟩
  · intro x hx
    rw [List.nil_append, List.mem_singleton] at hx
    subst hx
    exact hg (by decide)
  · intro x hx v hv
    rw [List.nil_append, List.mem_singleton] at hx
    subst hx
    rw [hg (by decide)] at hv
    cases hv

/-- What is written encrypted is such a file. -/
theorem locked_written (S : Setup) (E : Bytes → Bytes → Bytes) (p : Protection) (hv : p.Valid) (pw : PyStr) (hpw : p.Opens S.crypto.md5 pw) {objs : List Obj} (hn : objs.length < 4294967295)
    (ho : ∀ k o, objs[k]? = some o → Sealable S.crypto.md5 (p.key S.crypto.md5) (k + 1) o) {r : Nat} {g : Int} {catalog : List (Key × Obj)}
    (hcat : objs[r]? = some (.dict catalog)) : LockedFile S E pw (writeLocked S.crypto.md5 p objs (.ref (r + 1 : Nat) g)) p.P (numbered 1 objs) catalog := by
  have hnone : ∀ {k : Key}, k ∉ [nm "Size", nm "Root", nm "Encrypt", nm "ID"] → dictGet (p.trailer S.crypto.md5 (objs.length + 1) (.ref (r + 1 : Nat) g)) k = none :=
    fun h => trailer_none p _ _ _ h
  exact ⟨_, [], p.trailer S.crypto.md5 (objs.length + 1) (.ref (r + 1 : Nat) g), _, _, _, _, _, _, _,
    written_sections S.fileDecode (sealObjs S.crypto.md5 (p.key S.crypto.md5) 1 objs) (p.trailer S.crypto.md5 (objs.length + 1) (.ref (r + 1 : Nat) g)) (writable_sealed ho)
      (trailer_wf p S.crypto.md5 _ (.ref (r + 1 : Nat) g) trivial) (hnone (by decide)) (hnone (by decide)), rfl, by simp, rfl, .direct (by simp), rfl, .direct (by simp),
    protection_unlocks S.crypto E p hv pw hpw _, locked_objects S.fileDecode objs _ hn ho, rfl, by rw [hnone (by decide)]; simp, numbered_root hcat⟩

/-- **C113, encryption.** Encrypting a document changes nothing for somebody who has a password: whatever the pages are, the encrypted file and the plain one give the same. -/
theorem locked_transparent (S : Setup) (hb : 0 < S.bufsiz) (hm : ∀ x, (S.crypto.md5 x).length = 16) (hsha : ∀ x, (S.crypto.sha x).length = 32) (E : Bytes → Bytes → Bytes)
    (hc : BlockCipher E S.crypto.aes) (p : Protection) (hv : p.Valid) (pw : PyStr) (hpw : p.Opens S.crypto.md5 pw) (objs : List Obj) (hn : objs.length < 4294967295)
    (hw : ∀ o ∈ objs, Spec.Writable o) (ho : ∀ k o, objs[k]? = some o → Sealable S.crypto.md5 (p.key S.crypto.md5) (k + 1) o) {r : Nat} {g : Int} {catalog : List (Key × Obj)}
    (hcat : objs[r]? = some (.dict catalog)) (hp : HasPage (numbered 1 objs) catalog) (opts opts' : Options) (hop : opts.password = some pw)
    (hx : opts.checkExtractable = false ∨ permission p.P 5 = true) (hs : SameRequest opts opts') :
    ∃ N, ∀ fuel ≥ N, deliver S opts fuel (writeLocked S.crypto.md5 p objs (.ref (r + 1 : Nat) g)) = deliver S opts' fuel (Spec.writeFile objs [(nm "Root", .ref (r + 1 : Nat) g)]) :=
  same_objects hb hm hsha hc (.locked hop (locked_written S E p hv pw hpw hn ho hcat) hx) (.plain (plain_written S hw hcat)) (fun _ => rfl) hp hs

/-- What is left when the file is cut off and the cross-reference table is lost is such a file as well. -/
theorem rest_written (S : Setup) {objs : List Obj} (ho : ∀ o ∈ objs, Spec.Writable o) {r : Nat} {g : Int} {catalog : List (Key × Obj)} (hcat : objs[r]? = some (.dict catalog))
    (hs : ∀ f ∈ (eolFields (writeRest objs [(nm "Root", .ref (r + 1 : Nat) g)])).tail, ¬ Trims f startxrefWord) :
    PlainFile S (writeRest objs [(nm "Root", .ref (r + 1 : Nat) g)]) (numbered 1 objs) catalog := by
  have hg : ∀ {k : Key}, k ≠ nm "Root" → dictGet [(nm "Root", Obj.ref (r + 1 : Nat) g)] k = none := fun h => by
    simp only [dictGet]
    rw [if_neg (Ne.symm h)]
  refine ⟨_, [], [(nm "Root", .ref (r + 1 : Nat) g)], _, _,
    rest_sections S.fileDecode objs _ ho ⟨by simp, ⟨_, rfl⟩, trivial, trivial⟩ hs, rest_objects S.fileDecode objs _ ho, rfl, by simp, rfl, ?_, ?_, numbered_root hcat⟩
  · intro x hx
    rw [List.nil_append, List.mem_singleton] at hx
    subst hx
    exact hg (by decide)
  · intro x hx v hv
    rw [List.nil_append, List.mem_singleton] at hx
    subst hx
    rw [hg (by decide)] at hv
    cases hv

/-- **C113, damage.** Losing the end of the file with the cross-reference table changes nothing, whatever the pages are. -/
theorem recovery_transparent (S : Setup) (hb : 0 < S.bufsiz) (hm : ∀ x, (S.crypto.md5 x).length = 16) (hsha : ∀ x, (S.crypto.sha x).length = 32) (E : Bytes → Bytes → Bytes)
    (hc : BlockCipher E S.crypto.aes) (objs : List Obj) (hw : ∀ o ∈ objs, Spec.Writable o) {r : Nat} {g : Int} {catalog : List (Key × Obj)}
    (hcat : objs[r]? = some (.dict catalog)) (hs : ∀ f ∈ (eolFields (writeRest objs [(nm "Root", .ref (r + 1 : Nat) g)])).tail, ¬ Trims f startxrefWord)
    (hp : HasPage (numbered 1 objs) catalog) (opts opts' : Options) (ho : SameRequest opts opts') :
    ∃ N, ∀ fuel ≥ N, deliver S opts fuel (writeRest objs [(nm "Root", .ref (r + 1 : Nat) g)]) = deliver S opts' fuel (Spec.writeFile objs [(nm "Root", .ref (r + 1 : Nat) g)]) :=
  same_objects hb hm hsha hc (.plain (rest_written S hw hcat hs)) (.plain (plain_written S hw hcat)) (fun _ => rfl) hp ho

/-! ### A sample -/

theorem sample_has_page : HasPage (numbered 1 (textObjs helvetica [[asc "Hi"]])) catalogDict := by
  obtain ⟨h1, h2, h3⟩ := text_pages sampleSetup helvetica false [[asc "Hi"]] [pstr "Hi"]
    (helvetica_lines sampleSetup sample_furnished false _ _ (by decide)
      (.cons ⟨[pstr "Hi"], .cons (by rw [show pstr "Hi" = (asc "Hi").map UInt8.toNat by decide +kernel]; exact ascii_text (by decide +kernel)) .nil, by simp⟩ .nil))
  refine ⟨.ref 2 0, _, rfl, h2, ?_⟩
  intro e
  rw [e] at h3
  cases h3

/-- The sample, encrypted and read with the owner password, and the sample in the clear give the same files. -/
example : ∃ N, ∀ fuel ≥ N, deliver sampleSetup { password := some (pstr "xy") } fuel (writeLocked toyHash sampleProtection (textObjs helvetica [[asc "Hi"]]) (.ref 1 0)) =
    deliver sampleSetup {} fuel (Spec.writeFile (textObjs helvetica [[asc "Hi"]]) [(nm "Root", .ref 1 0)]) :=
  locked_transparent sampleSetup (by decide) toyHash_length toy_hash32 _ toy_cipher sampleProtection sampleProtection_valid (pstr "xy") sample_opens.2 _ (by decide)
    (writable_text _ helvetica_wf _) (sealable_text _ _ _ sample_no_end) (r := 0) rfl sample_has_page _ _ rfl (.inr (by decide)) ⟨rfl, rfl, rfl⟩

theorem sample_no_startxref : ∀ f ∈ (eolFields (writeRest (textObjs helvetica [[asc "Hi"]]) [(nm "Root", Obj.ref 1 0)])).tail, ¬ Trims f startxrefWord := by
  have : ∀ f ∈ (eolFields (writeRest (textObjs helvetica [[asc "Hi"]]) [(nm "Root", Obj.ref 1 0)])).tail, strip f ≠ startxrefWord := by decide +kernel
  exact fun f hf h => this f hf (strip_of_trims h)

/-- The sample without its cross-reference table, read without caching. -/
example : ∃ N, ∀ fuel ≥ N, deliver sampleSetup { caching := false } fuel (writeRest (textObjs helvetica [[asc "Hi"]]) [(nm "Root", .ref 1 0)]) =
    deliver sampleSetup {} fuel (Spec.writeFile (textObjs helvetica [[asc "Hi"]]) [(nm "Root", .ref 1 0)]) :=
  recovery_transparent sampleSetup (by decide) toyHash_length toy_hash32 _ toy_cipher _ (writable_text _ helvetica_wf _) (r := 0) rfl sample_no_startxref sample_has_page _ _ ⟨rfl, rfl, rfl⟩

end Pdf
