import Verif.Spec.ConvertFile
import Verif.Props.Outputs
import Verif.Props.Paths
import Verif.Props.UniFile
/-! C104: `convert_file` as a whole. -/

namespace Pdf
open Spec

/-! ### UTF-8 -/

theorem byte_ofNat_inj {a b : Nat} (ha : a < 256) (hb : b < 256) (h : UInt8.ofNat a = UInt8.ofNat b) : a = b := by
  have := congrArg UInt8.toNat h
  rwa [UInt8.toNat_ofNat_of_lt' ha, UInt8.toNat_ofNat_of_lt' hb] at this

/-- A text has a UTF-8 form exactly if `encode` gives it. -/
theorem encode_utf8 {s : PyStr} {b : Bytes} : utf8Encode s = .ok b ↔ Utf8 b s := by
  refine ⟨fun h => ?_, utf8_encode⟩
  induction s generalizing b with
  | nil => cases h; exact .nil
  | cons c cs ih =>
    rw [utf8Encode] at h
    rcases hc : utf8Char c with _ | x
    · rw [hc] at h; cases h
    rw [hc] at h
    dsimp only at h
    rcases hr : utf8Encode cs with e | r
    · rw [hr] at h; cases h
    rw [hr] at h
    cases h
    have h1 := ih hr
    unfold utf8Char at hc
    split_ifs at hc with g1 g2 g3 g4 g5
    · cases hc; exact .one g1 h1
    · cases hc
      have := Utf8.two (x := c / 64) (y := c % 64) (r := r) (s := cs) (by omega) (by omega) (by omega) h1
      rwa [show c / 64 * 64 + c % 64 = c by omega] at this
    · cases hc
      exact .three (by omega) (by omega) (by omega) (by omega) g4 (by omega) h1
    · cases hc
      exact .four (by omega) (by omega) (by omega) (by omega) (by omega) g5 h1

/-- A text has no UTF-8 form exactly if it has a character without one, and then `encode` raises `UnicodeEncodeError`. -/
theorem encode_fails {s : PyStr} : utf8Encode s = .error .valueError ↔ ∃ c ∈ s, Unencodable c := by
  induction s with
  | nil => simp [utf8Encode]
  | cons c cs ih =>
    have hc : utf8Char c = none ↔ Unencodable c := by
      unfold utf8Char Unencodable
      split_ifs <;> simp <;> omega
    rw [utf8Encode]
    rcases hx : utf8Char c with _ | x
    · simp [hc.1 hx]
    · dsimp only
      have hn : ¬ Unencodable c := fun h => by rw [hc.2 h] at hx; cases hx
      have hm : (∃ d ∈ c :: cs, Unencodable d) ↔ ∃ d ∈ cs, Unencodable d := by simp [hn]
      rw [hm, ← ih]
      rcases utf8Encode cs with e | r <;> simp

theorem encode_error {s : PyStr} {e : PyErr} (h : utf8Encode s = .error e) : e = .valueError := by
  induction s with
  | nil => cases h
  | cons c cs ih =>
    rw [utf8Encode] at h
    rcases hc : utf8Char c with _ | x
    · rw [hc] at h; cases h; rfl
    · rw [hc] at h
      dsimp only at h
      rcases hr : utf8Encode cs with e' | r
      · rw [hr] at h; cases h; exact ih hr
      · rw [hr] at h; cases h

/-- The bytes determine the text. -/
theorem utf8_unique {b : Bytes} {s s' : PyStr} (h : Utf8 b s) (h' : Utf8 b s') : s = s' := by
  induction h generalizing s' with
  | nil => cases h'; rfl
  | @one c r s k1 _ ih =>
    generalize hb : UInt8.ofNat c :: r = b at h'
    cases h' with
    | nil => cases hb
    | @one c' r' s' j1 j =>
      obtain ⟨e1, rfl⟩ := List.cons.inj hb
      have := byte_ofNat_inj (by omega) (by omega) e1
      rw [this, ih j]
    | @two x y r' s' j1 j2 j3 j =>
      have := byte_ofNat_inj (by omega) (by omega) (List.cons.inj hb).1
      omega
    | @three x y z c' r' s' j1 j2 j3 j4 j5 j6 j =>
      have := byte_ofNat_inj (by omega) (by omega) (List.cons.inj hb).1
      omega
    | @four x y z w c' r' s' j1 j2 j3 j4 j5 j6 j =>
      have := byte_ofNat_inj (by omega) (by omega) (List.cons.inj hb).1
      omega
  | @two x y r s k1 k2 k3 _ ih =>
    generalize hb : UInt8.ofNat (0xC0 + x) :: UInt8.ofNat (0x80 + y) :: r = b at h'
    cases h' with
    | nil => cases hb
    | @one c' r' s' j1 j =>
      have := byte_ofNat_inj (by omega) (by omega) (List.cons.inj hb).1
      omega
    | @two x' y' r' s' j1 j2 j3 j =>
      obtain ⟨e1, hb⟩ := List.cons.inj hb
      obtain ⟨e2, rfl⟩ := List.cons.inj hb
      have e1 := byte_ofNat_inj (by omega) (by omega) e1
      have e2 := byte_ofNat_inj (by omega) (by omega) e2
      rw [ih j, show x = x' by omega, show y = y' by omega]
    | @three x' y' z' c' r' s' j1 j2 j3 j4 j5 j6 j =>
      have := byte_ofNat_inj (by omega) (by omega) (List.cons.inj hb).1
      omega
    | @four x' y' z' w' c' r' s' j1 j2 j3 j4 j5 j6 j =>
      have := byte_ofNat_inj (by omega) (by omega) (List.cons.inj hb).1
      omega
  | @three x y z c r s k1 k2 k3 k4 k5 k6 _ ih =>
    generalize hb : UInt8.ofNat (0xE0 + x) :: UInt8.ofNat (0x80 + y) :: UInt8.ofNat (0x80 + z) :: r = b at h'
    cases h' with
    | nil => cases hb
    | @one c' r' s' j1 j =>
      have := byte_ofNat_inj (by omega) (by omega) (List.cons.inj hb).1
      omega
    | @two x' y' r' s' j1 j2 j3 j =>
      have := byte_ofNat_inj (by omega) (by omega) (List.cons.inj hb).1
      omega
    | @three x' y' z' c' r' s' j1 j2 j3 j4 j5 j6 j =>
      obtain ⟨e1, hb⟩ := List.cons.inj hb
      obtain ⟨e2, hb⟩ := List.cons.inj hb
      obtain ⟨e3, rfl⟩ := List.cons.inj hb
      have e1 := byte_ofNat_inj (by omega) (by omega) e1
      have e2 := byte_ofNat_inj (by omega) (by omega) e2
      have e3 := byte_ofNat_inj (by omega) (by omega) e3
      rw [ih j, show c = c' by omega]
    | @four x' y' z' w' c' r' s' j1 j2 j3 j4 j5 j6 j =>
      have := byte_ofNat_inj (by omega) (by omega) (List.cons.inj hb).1
      omega
  | @four x y z w c r s k1 k2 k3 k4 k5 k6 _ ih =>
    generalize hb : UInt8.ofNat (0xF0 + x) :: UInt8.ofNat (0x80 + y) :: UInt8.ofNat (0x80 + z) :: UInt8.ofNat (0x80 + w) :: r = b at h'
    cases h' with
    | nil => cases hb
    | @one c' r' s' j1 j =>
      have := byte_ofNat_inj (by omega) (by omega) (List.cons.inj hb).1
      omega
    | @two x' y' r' s' j1 j2 j3 j =>
      have := byte_ofNat_inj (by omega) (by omega) (List.cons.inj hb).1
      omega
    | @three x' y' z' c' r' s' j1 j2 j3 j4 j5 j6 j =>
      have := byte_ofNat_inj (by omega) (by omega) (List.cons.inj hb).1
      omega
    | @four x' y' z' w' c' r' s' j1 j2 j3 j4 j5 j6 j =>
      obtain ⟨e1, hb⟩ := List.cons.inj hb
      obtain ⟨e2, hb⟩ := List.cons.inj hb
      obtain ⟨e3, hb⟩ := List.cons.inj hb
      obtain ⟨e4, rfl⟩ := List.cons.inj hb
      have e1 := byte_ofNat_inj (by omega) (by omega) e1
      have e2 := byte_ofNat_inj (by omega) (by omega) e2
      have e3 := byte_ofNat_inj (by omega) (by omega) e3
      have e4 := byte_ofNat_inj (by omega) (by omega) e4
      rw [ih j, show c = c' by omega]

/-- Every text whose characters all have a form has one. -/
theorem utf8_exists {s : PyStr} (h : ∀ c ∈ s, ¬ Unencodable c) : ∃ b, Utf8 b s := by
  rcases he : utf8Encode s with e | b
  · obtain ⟨c, h1, h2⟩ := encode_fails.1 (encode_error he ▸ he)
    exact absurd h2 (h c h1)
  · exact ⟨b, encode_utf8.1 he⟩

/-! ### The converters -/

theorem textBegun_eq (p : Option LtPage) : textBegun p = textStarted p := by cases p <;> rfl

theorem prints_iff (W : OutEnv) (S : Setup) (opts : Options) (fuel : Nat) (data : Bytes) (c : Converter) (t : PyStr) (r : HtmlEnd) :
    ConverterWrites W S opts fuel data c t r ↔ written W (pstr "utf-8") (deliver S opts fuel data) c = (t, r) := by
  cases c with
  | html => exact Iff.rfl
  | xml =>
    simp only [ConverterWrites, convertXml, written]
    rcases (deliver S opts fuel data).error with _ | e
    · constructor
      · rintro ⟨e, h, rfl⟩; cases h; rfl
      · intro h; cases h; exact ⟨none, rfl, rfl⟩
    · constructor
      · rintro ⟨e, h, rfl⟩; cases h; rfl
      · intro h; cases h; exact ⟨some _, rfl, rfl⟩
  | json =>
    simp only [ConverterWrites, convertJson, written]
    constructor
    · rintro ⟨e, h, rfl⟩; cases h; rfl
    · intro h; cases h; exact ⟨_, rfl, rfl⟩
  | yaml =>
    simp only [ConverterWrites, convertYaml, written]
    constructor
    · rintro ⟨e, h, rfl⟩; cases h; rfl
    · intro h; cases h; exact ⟨_, rfl, rfl⟩
  | text =>
    simp only [ConverterWrites, convertText_deliver, written, textBegun_eq]
    constructor
    · rintro ⟨e, h, rfl⟩; cases h; rfl
    · intro h; cases h; exact ⟨_, rfl, rfl⟩

theorem written_html_none (W : OutEnv) (e : PyErr) : written W (pstr "utf-8") { error := some e } .html =
    (hOpen 0 (pstr "html") [] ++ xWriteNode 1 (hHead (pstr "utf-8")) ++ hOpen 1 (pstr "body") [], .raised e) := by
  show (hOpen 0 (pstr "html") [] ++ xWriteNode 1 (hHead (pstr "utf-8")) ++ hOpen 1 (pstr "body") [] ++ [] ++ [], HtmlEnd.raised e) = _
  rw [List.append_nil, List.append_nil]

/-- If the first page already fails, the converters write what they write without pages. -/
theorem written_blank (W : OutEnv) (e : PyErr) (c : Converter) : ∃ t, written W (pstr "utf-8") { error := some e } c = (t, .raised e) ∧ NoPages c t := by
  cases c with
  | html =>
    refine ⟨hOpen 0 (pstr "html") [] ++ xWriteNode 1 (hHead (pstr "utf-8")) ++ hOpen 1 (pstr "body") [], written_html_none W e, xWriteNode 1 (hHead (pstr "utf-8")), ?_⟩
    rw [show hOpen 0 (pstr "html") [] = pstr "<html >\n" by decide, show hOpen 1 (pstr "body") [] = pstr " <body >\n" by decide]
  | xml => exact ⟨_, rfl, by simp only [NoPages, xmlCut, xStarted, List.map_nil, XBody.ofList, xWrite, List.append_nil]; decide +kernel⟩
  | json => exact ⟨_, rfl, by simp [NoPages, jsonFile]; decide⟩
  | yaml => exact ⟨_, rfl, by simp [NoPages, yamlFile]; decide⟩
  | text => exact ⟨_, rfl, rfl⟩

/-! ### Reading an empty file -/

theorem open_empty (S : Setup) (password : Option PyStr) (caching : Bool) (fuel : Nat) : ∃ e, openDocument S password caching fuel [] = .error e := by
  have h1 : findXref S.bufsiz [] = .error .pdfNoValidXRef := by
    have : revreadlines S.bufsiz [] = [] := by
      unfold revreadlines
      rw [revLoop.eq_def]
      simp
    rw [findXref, this]; rfl
  unfold openDocument openXrefs
  rw [h1]
  dsimp only
  rw [if_pos rfl]
  dsimp only
  cases fuel with
  | zero => exact ⟨_, rfl⟩
  | succ n =>
    unfold fallbackLoad
    have h2 : ∃ ps, (PSt.seek [] 0).nextline S.bufsiz = (.error .psEOF, ps) := by
      simp [PSt.nextline, PSt.nextlineLoop, PSt.fillbuf, PSt.seek]
    obtain ⟨ps, h2⟩ := h2
    rw [fallbackLoop, h2]
    exact ⟨_, rfl⟩

theorem deliver_empty (S : Setup) (opts : Options) (fuel : Nat) : ∃ e, deliver S opts fuel [] = { error := some e } := by
  obtain ⟨e, h⟩ := open_empty S opts.password opts.caching fuel
  exact ⟨e, by rw [deliver, h]⟩

/-! ### The files -/

section
variable (isWord : Nat → Bool) (canOpen : PyStr → Bool) (W : OutEnv) (S : Setup) (garbled : Bytes) (opts : Options) (fuel : Nat) (F : Files)
  (input : PyStr) (output : Option PyStr) (t : PyStr)

/-- **C104, refusal.** If the type is unknown, or the output name does not end with it, no file is touched. -/
theorem convert_file_refused (h : NameRefused t output) :
    convertFileRun isWord canOpen W S garbled opts fuel F input output t = (F, .raised .converter) := by
  have hc : convertFile isWord input output t = .error .converter := by
    cases h with
    | type h => exact (output_refused input output t).1 h
    | @name o h1 h2 => exact (output_refused input (some o) t).2 o h1 h2
  rw [convertFileRun, hc]

theorem convertFile_run {c : Converter} {out : PyStr} (h : convertFile isWord input output t = .ok (c, out)) (ho : canOpen out = true) :
    convertFileRun isWord canOpen W S garbled opts fuel F input output t =
      (F.write out (encoded garbled (written W (pstr "utf-8") (deliverFrom S opts fuel ((F.write out []) input)) c)).1,
        (encoded garbled (written W (pstr "utf-8") (deliverFrom S opts fuel ((F.write out []) input)) c)).2) := by
  rw [convertFileRun, h]
  dsimp only
  rw [if_pos ho]

theorem convertFile_closed {c : Converter} {out : PyStr} (h : convertFile isWord input output t = .ok (c, out)) (ho : canOpen out = false) :
    convertFileRun isWord canOpen W S garbled opts fuel F input output t = (F, .raised .osError) := by
  rw [convertFileRun, h]
  dsimp only
  rw [if_neg (by rw [ho]; simp)]

theorem convertFile_failed {e : PyErr} (h : convertFile isWord input output t = .error e) :
    convertFileRun isWord canOpen W S garbled opts fuel F input output t = (F, .raised e) := by
  rw [convertFileRun, h]

/-- **C104, frame.** Whatever happens, the only file that a call may change is the output file of C52. -/
theorem convert_file_frame (path : PyStr) (h : (convertFileRun isWord canOpen W S garbled opts fuel F input output t).1 path ≠ F path) :
    ∃ c, convertFile isWord input output t = .ok (c, path) := by
  rcases hc : convertFile isWord input output t with e | ⟨c, out⟩
  · rw [convertFile_failed isWord canOpen W S garbled opts fuel F input output t hc] at h
    exact absurd rfl h
  · cases ho : canOpen out with
    | false =>
      rw [convertFile_closed isWord canOpen W S garbled opts fuel F input output t hc ho] at h
      exact absurd rfl h
    | true =>
      rw [convertFile_run isWord canOpen W S garbled opts fuel F input output t hc ho] at h
      by_cases hp : path = out
      · exact ⟨c, by rw [hp]⟩
      · exact absurd (by simp [Files.write, hp]) h

/-- **C104, contents.** If the input is a file and the output is another path that can be opened, then after the call the output file has the UTF-8 form of what the
converter of the type writes for the document in the input file, and the call ends as that conversion does. If what is written has a character without such
a form, `UnicodeEncodeError` is raised. -/
theorem convert_file_writes {c : Converter} {out : PyStr} (h : convertFile isWord input output t = .ok (c, out)) (ho : canOpen out = true) (hne : out ≠ input)
    {data : Bytes} (hd : F input = some data) : ∃ text r, ConverterWrites W S opts fuel data c text r ∧
      (∀ b, Utf8 b text → (convertFileRun isWord canOpen W S garbled opts fuel F input output t).1 out = some b ∧
        (convertFileRun isWord canOpen W S garbled opts fuel F input output t).2 = r) ∧
      ((∃ x ∈ text, Unencodable x) → (convertFileRun isWord canOpen W S garbled opts fuel F input output t).2 = .raised .valueError) := by
  have hin : (F.write out []) input = some data := by simp [Files.write, Ne.symm hne, hd]
  rw [convertFile_run isWord canOpen W S garbled opts fuel F input output t h ho, hin, deliverFrom]
  generalize hw : written W (pstr "utf-8") (deliver S opts fuel data) c = w
  refine ⟨w.1, w.2, (prints_iff W S opts fuel data c w.1 w.2).2 hw, fun b hb => ?_, fun hx => ?_⟩
  · rw [encoded, utf8_encode hb]
    exact ⟨by simp [Files.write], rfl⟩
  · rw [encoded, encode_fails.2 hx]

/-- Without pages everything can be encoded. -/
theorem encoded_blank (e : PyErr) (c : Converter) : ∃ text b, NoPages c text ∧ Utf8 b text ∧
    encoded garbled (written W (pstr "utf-8") { error := some e } c) = (b, .raised e) := by
  obtain ⟨text, h1, h2⟩ := written_blank W e c
  have hx : ∃ b, Utf8 b text := by
    cases c with
    | html =>
      refine utf8_exists fun x hx => ?_
      have : text = hOpen 0 (pstr "html") [] ++ xWriteNode 1 (hHead (pstr "utf-8")) ++ hOpen 1 (pstr "body") [] := by
        rw [written_html_none] at h1
        exact (congrArg Prod.fst h1).symm
      have hb : ∀ x ∈ hOpen 0 (pstr "html") [] ++ xWriteNode 1 (hHead (pstr "utf-8")) ++ hOpen 1 (pstr "body") [], x < 128 := by decide +kernel
      rw [this] at hx
      have := hb x hx
      unfold Unencodable
      omega
    | xml =>
      refine utf8_exists fun x hx => ?_
      have hb : ∀ x ∈ pstr "<?xml version=\"1.0.0\" encoding=\"utf-8\" ?><pages >\n", x < 128 := by decide +kernel
      rw [show text = _ from h2] at hx
      have := hb x hx
      unfold Unencodable
      omega
    | json =>
      rw [show text = _ from h2]
      exact ⟨asc "{\n  \"pages\": [\n  ]\n}", encode_utf8.1 (by decide)⟩
    | yaml => rw [show text = _ from h2]; exact ⟨asc "pages:\n", encode_utf8.1 (by decide)⟩
    | text => rw [show text = _ from h2]; exact ⟨[], .nil⟩
  obtain ⟨b, hb⟩ := hx
  exact ⟨text, b, h2, hb, by rw [h1, encoded, utf8_encode hb]⟩

/-- **C104, missing input.** If there is no input file, the call fails - but only after the output file has been opened: if there was one, it is overwritten with what the
converter writes for no pages. -/
theorem convert_file_missing {c : Converter} {out : PyStr} (h : convertFile isWord input output t = .ok (c, out)) (ho : canOpen out = true) (hne : out ≠ input)
    (hd : F input = none) : (convertFileRun isWord canOpen W S garbled opts fuel F input output t).2 = .raised .osError ∧
      ∃ text b, NoPages c text ∧ Utf8 b text ∧ (convertFileRun isWord canOpen W S garbled opts fuel F input output t).1 out = some b := by
  have hin : (F.write out []) input = none := by simp [Files.write, Ne.symm hne, hd]
  rw [convertFile_run isWord canOpen W S garbled opts fuel F input output t h ho, hin, deliverFrom]
  obtain ⟨text, b, h1, h2, h3⟩ := encoded_blank W garbled .osError c
  rw [h3]
  exact ⟨rfl, text, b, h1, h2, by simp [Files.write]⟩

/-- **C104, the input as the output.** If the output path is the input path, the document is lost: the call fails, and the file has what the converter writes for no
pages, whatever was in it. -/
theorem convert_file_destroys {c : Converter} (h : convertFile isWord input output t = .ok (c, input)) (ho : canOpen input = true) :
    ∃ e text b, NoPages c text ∧ Utf8 b text ∧ (convertFileRun isWord canOpen W S garbled opts fuel F input output t).2 = .raised e ∧
      (convertFileRun isWord canOpen W S garbled opts fuel F input output t).1 input = some b := by
  have hin : (F.write input []) input = some [] := by simp [Files.write]
  rw [convertFile_run isWord canOpen W S garbled opts fuel F input output t h ho, hin, deliverFrom]
  obtain ⟨e, he⟩ := deliver_empty S opts fuel
  rw [he]
  obtain ⟨text, b, h1, h2, h3⟩ := encoded_blank W garbled e c
  rw [h3]
  exact ⟨e, text, b, h1, h2, rfl, by simp [Files.write]⟩

/-- **C104, locality.** The output file and the outcome of a call depend only on the input file, not on any other file. -/
theorem convert_file_local (G : Files) (h : F input = G input) {c : Converter} {out : PyStr} (hc : convertFile isWord input output t = .ok (c, out))
    (ho : canOpen out = true) :
    (convertFileRun isWord canOpen W S garbled opts fuel F input output t).1 out = (convertFileRun isWord canOpen W S garbled opts fuel G input output t).1 out ∧
    (convertFileRun isWord canOpen W S garbled opts fuel F input output t).2 = (convertFileRun isWord canOpen W S garbled opts fuel G input output t).2 := by
  rw [convertFile_run isWord canOpen W S garbled opts fuel F input output t hc ho, convertFile_run isWord canOpen W S garbled opts fuel G input output t hc ho]
  have hin : (F.write out []) input = (G.write out []) input := by
    by_cases hp : input = out
    · simp [Files.write, hp]
    · simp [Files.write, hp, h]
  rw [hin]
  exact ⟨by simp [Files.write], rfl⟩

theorem convertFile_end (G : Files) (h : F input = G input) :
    (convertFileRun isWord canOpen W S garbled opts fuel F input output t).2 = (convertFileRun isWord canOpen W S garbled opts fuel G input output t).2 := by
  rcases hc : convertFile isWord input output t with e | ⟨c, out⟩
  · rw [convertFile_failed isWord canOpen W S garbled opts fuel F input output t hc, convertFile_failed isWord canOpen W S garbled opts fuel G input output t hc]
  · cases ho : canOpen out with
    | false => rw [convertFile_closed isWord canOpen W S garbled opts fuel F input output t hc ho, convertFile_closed isWord canOpen W S garbled opts fuel G input output t hc ho]
    | true => exact (convert_file_local isWord canOpen W S garbled opts fuel F input output t G h hc ho).2

/-- **C104, repetition.** A second call with the same arguments ends as the first and changes nothing, unless the input is the output. -/
theorem convert_file_repeat (hne : ∀ c, convertFile isWord input output t ≠ .ok (c, input)) :
    convertFileRun isWord canOpen W S garbled opts fuel (convertFileRun isWord canOpen W S garbled opts fuel F input output t).1 input output t =
      convertFileRun isWord canOpen W S garbled opts fuel F input output t := by
  have hin : (convertFileRun isWord canOpen W S garbled opts fuel F input output t).1 input = F input := by
    by_contra h
    obtain ⟨c, hc⟩ := convert_file_frame isWord canOpen W S garbled opts fuel F input output t input h
    exact hne c hc
  generalize hG : (convertFileRun isWord canOpen W S garbled opts fuel F input output t).1 = G at hin ⊢
  refine Prod.ext ?_ (convertFile_end isWord canOpen W S garbled opts fuel G input output t F hin)
  rw [hG]
  funext path
  by_contra h
  obtain ⟨c, hc⟩ := convert_file_frame isWord canOpen W S garbled opts fuel G input output t path h
  cases ho : canOpen path with
  | false =>
    rw [convertFile_closed isWord canOpen W S garbled opts fuel G input output t hc ho] at h
    exact h rfl
  | true =>
    refine h ?_
    rw [(convert_file_local isWord canOpen W S garbled opts fuel G input output t F hin hc ho).1, hG]

end

/-- **C104, order.** Two calls, neither of which writes to the input or to the output of the other, may be made in either order: the files in the end are the same, and so
are the outcomes. -/
theorem convert_file_order (isWord : Nat → Bool) (canOpen : PyStr → Bool) (W W' : OutEnv) (S S' : Setup) (garbled garbled' : Bytes) (opts opts' : Options) (fuel fuel' : Nat)
    (F : Files) (input input' : PyStr) (output output' : Option PyStr) (t t' : PyStr)
    (h : ∀ c c' out out', convertFile isWord input output t = .ok (c, out) → convertFile isWord input' output' t' = .ok (c', out') → out ≠ out' ∧ out ≠ input' ∧ out' ≠ input)
    (run run' : Files → Files × HtmlEnd) (hr : run = fun F => convertFileRun isWord canOpen W S garbled opts fuel F input output t)
    (hr' : run' = fun F => convertFileRun isWord canOpen W' S' garbled' opts' fuel' F input' output' t') :
    (run' (run F).1).1 = (run (run' F).1).1 ∧ (run' (run F).1).2 = (run' F).2 ∧ (run (run' F).1).2 = (run F).2 := by
  subst hr hr'
  dsimp only
  rcases hc : convertFile isWord input output t with e | ⟨c, out⟩
  · simp only [convertFile_failed isWord canOpen W S garbled opts fuel _ input output t hc, and_self]
  rcases hc' : convertFile isWord input' output' t' with e' | ⟨c', out'⟩
  · simp only [convertFile_failed isWord canOpen W' S' garbled' opts' fuel' _ input' output' t' hc', and_self]
  obtain ⟨h1, h2, h3⟩ := h c c' out out' hc hc'
  cases ho : canOpen out with
  | false => simp only [convertFile_closed isWord canOpen W S garbled opts fuel _ input output t hc ho, and_self]
  | true =>
    cases ho' : canOpen out' with
    | false => simp only [convertFile_closed isWord canOpen W' S' garbled' opts' fuel' _ input' output' t' hc' ho', and_self]
    | true =>
      simp only [convertFile_run isWord canOpen W S garbled opts fuel _ input output t hc ho, convertFile_run isWord canOpen W' S' garbled' opts' fuel' _ input' output' t' hc' ho']
      have e1 : ∀ b, ((F.write out b).write out' []) input' = (F.write out' []) input' := by
        intro b
        by_cases hp : input' = out'
        · simp [Files.write, hp]
        · simp [Files.write, hp, Ne.symm h2]
      have e2 : ∀ b, ((F.write out' b).write out []) input = (F.write out []) input := by
        intro b
        by_cases hp : input = out
        · simp [Files.write, hp]
        · simp [Files.write, hp, Ne.symm h3]
      rw [e1, e2]
      refine ⟨?_, rfl, rfl⟩
      funext p
      by_cases hp : p = out
      · by_cases hp' : p = out'
        · exact absurd (hp.symm.trans hp') h1
        · simp [Files.write, hp, h1]
      · simp [Files.write, hp]

/-- **C104, the input is kept.** A call without an output path keeps its input file if the extension of the input is not the type. -/
theorem convert_file_keeps {isWord : Nat → Bool} (hw : WordClass isWord) {dir : PyStr} (hd : DirPart dir) (stem ext : PyStr) (hs : ∀ c ∈ stem, c ≠ '/'.toNat)
    (he : ext ≠ []) (hx : ∀ c ∈ ext, isWord c = true) (t : PyStr) (hne : ext ≠ t) (canOpen : PyStr → Bool) (W : OutEnv) (S : Setup) (garbled : Bytes) (opts : Options)
    (fuel : Nat) (F : Files) : (convertFileRun isWord canOpen W S garbled opts fuel F (dir ++ stem ++ pstr "." ++ ext) none t).1 (dir ++ stem ++ pstr "." ++ ext) =
      F (dir ++ stem ++ pstr "." ++ ext) := by
  by_contra h
  obtain ⟨c, hc⟩ := convert_file_frame isWord canOpen W S garbled opts fuel F _ none t _ h
  exact output_fresh_partial hw hd stem ext hs he hx t hne c _ hc rfl

theorem textOf_encodable (ts : List PyStr) (h : ∀ t ∈ ts, ∀ c ∈ t, ¬ Unencodable c) : ∀ num, ∀ c ∈ textOf num ts, ¬ Unencodable c := by
  induction ts with
  | nil => intro num c hc; cases hc
  | cons t ts ih =>
    intro num c hc
    have a1 : ∀ c ∈ pstr "========== [ page ", c < 128 := by decide
    have a2 : ∀ c ∈ pstr " ] ==========\n", c < 128 := by decide
    have a3 : ∀ c ∈ pstr "\n", c < 128 := by decide
    have a4 : ∀ c ∈ numText num, c < 256 := by
      intro c hc
      obtain ⟨b, _, rfl⟩ := List.mem_map.1 hc
      exact b.toNat_lt
    rw [textOf] at hc
    simp only [List.mem_append] at hc
    rcases hc with ((((hc | hc) | hc) | hc) | hc) | hc
    · have := a1 c hc; unfold Unencodable; omega
    · have := a4 c hc; unfold Unencodable; omega
    · have := a2 c hc; unfold Unencodable; omega
    · exact h t (by simp) c hc
    · have := a3 c hc; unfold Unencodable; omega
    · exact ih (fun t ht => h t (by simp [ht])) _ c hc

theorem char_encodable (c : Char) : ¬ Unencodable c.toNat := by
  have := c.valid
  unfold Unencodable
  simp only [UInt32.isValidChar, Nat.isValidChar] at this
  show ¬ ((0xD800 ≤ c.val.toNat ∧ c.val.toNat < 0xE000) ∨ 0x110000 ≤ c.val.toNat)
  omega

/-- **C104, end to end.** `convert_file("dir/stem.pdf", out_type="text")` of a document that was written with pages of lines of any characters (see C95) makes a
file `dir/stem.text` with the UTF-8 form of these pages, and changes nothing else. -/
theorem convert_file_unicode (isWord : Nat → Bool) (hw : WordClass isWord) (hpdf : ∀ c ∈ pstr "pdf", isWord c = true) {dir : PyStr} (hd : DirPart dir) (stem : PyStr)
    (hs : ∀ c ∈ stem, c ≠ '/'.toNat) (canOpen : PyStr → Bool) (ho : canOpen (dir ++ stem ++ pstr "." ++ pstr "text") = true) (W : OutEnv) (S : Setup) (hb : 0 < S.bufsiz)
    (garbled : Bytes) (F : Files) (pages : List (List (List Char))) (hne : pages ≠ []) (hp : ∀ lines ∈ pages, ∀ line ∈ lines, line ≠ [])
    (hl : (charsOf pages).length ≤ 65536) (hF : F (dir ++ stem ++ pstr "." ++ pstr "pdf") = some (writeUnicode pages)) :
    ∃ b, Utf8 b (textOf 0 (pages.map fun lines => lines.flatten.map Char.toNat)) ∧
      ∃ N, ∀ fuel ≥ N, ∃ G, convertFileRun isWord canOpen W S garbled {} fuel F (dir ++ stem ++ pstr "." ++ pstr "pdf") none (pstr "text") = (G, .done) ∧
        G (dir ++ stem ++ pstr "." ++ pstr "text") = some b ∧ ∀ p, p ≠ dir ++ stem ++ pstr "." ++ pstr "text" → G p = F p := by
  obtain ⟨b, hu⟩ := utf8_exists (s := textOf 0 (pages.map fun lines => lines.flatten.map Char.toNat)) (textOf_encodable _ (by
    intro t ht c hc
    obtain ⟨lines, _, rfl⟩ := List.mem_map.1 ht
    obtain ⟨ch, _, rfl⟩ := List.mem_map.1 hc
    exact char_encodable ch) 0)
  obtain ⟨N, hN⟩ := unicode_text S hb pages hne hp hl
  refine ⟨b, hu, N, fun fuel hf => ?_⟩
  obtain ⟨c, hc, hconv⟩ := default_output hw hd stem (pstr "pdf") hs (by decide) hpdf (pstr "text") (by decide)
  have hct : c = .text := by
    have : converterOf (pstr "text") = some .text := by decide
    rw [this] at hc; cases hc; rfl
  subst hct
  have hio : dir ++ stem ++ pstr "." ++ pstr "text" ≠ dir ++ stem ++ pstr "." ++ pstr "pdf" := by
    intro h
    have := List.append_cancel_left h
    revert this
    decide
  obtain ⟨text, r, ⟨e, h1, h2⟩, h3, -⟩ := convert_file_writes isWord canOpen W S garbled {} fuel F _ none (pstr "text") hconv ho hio hF
  rw [hN fuel hf] at h1
  cases h1
  obtain ⟨h4, h5⟩ := h3 b hu
  refine ⟨_, Prod.ext rfl (h5.trans h2), h4, fun p hpne => ?_⟩
  by_contra h
  obtain ⟨c, hc'⟩ := convert_file_frame isWord canOpen W S garbled {} fuel F _ none (pstr "text") p h
  rw [hconv] at hc'
  cases hc'
  exact hpne rfl

/-! ### Examples and a counterexample -/

/-- An environment for examples. -/
def sampleOut : OutEnv := { sampleHtml with valueText := fun _ => pstr "0" }

/-- One file, `a/x.pdf`. -/
def oneFile (data : Bytes) : Files := fun p => if p = pstr "a/x.pdf" then some data else none

/-- A file in Greek is converted. -/
example : ∃ b, Utf8 b (textOf 0 [[945, 946]]) ∧ ∃ N, ∀ fuel ≥ N, ∃ G,
    convertFileRun letters (fun _ => true) sampleOut sampleSetup [] {} fuel (oneFile (writeUnicode [[['α', 'β']]])) (pstr "a/x.pdf") none (pstr "text") = (G, .done) ∧
      G (pstr "a/x.text") = some b ∧ ∀ p, p ≠ pstr "a/x.text" → G p = oneFile (writeUnicode [[['α', 'β']]]) p :=
  convert_file_unicode letters letters_word (by decide) (dir := pstr "a/") (.sub [] 97 (by decide)) (pstr "x") (by decide) (fun _ => true) rfl sampleOut sampleSetup
    (by decide) [] (oneFile (writeUnicode [[['α', 'β']]])) [[['α', 'β']]] (by simp) (by decide) (by decide +kernel) (by rfl)

/-- An output name with another extension is refused. -/
example : NameRefused (pstr "html") (some (pstr "x.htm")) := .name (by decide) (by decide)

/-- No file `a/x.pdf`: an old output file is overwritten. -/
example : ∃ text b, NoPages .json text ∧ Utf8 b text ∧
    (convertFileRun letters (fun _ => true) sampleOut sampleSetup [] {} 5 (fun p => if p = pstr "a/x.json" then some (asc "old") else none) (pstr "a/x.pdf") none (pstr "json")).1
      (pstr "a/x.json") = some b :=
  (convert_file_missing letters (fun _ => true) sampleOut sampleSetup [] {} 5 _ (pstr "a/x.pdf") none (pstr "json") (c := .json) (out := pstr "a/x.json") (by decide) rfl
    (by decide) (by decide)).2

/-- The input as the output. -/
example (data : Bytes) : ∃ e text b, NoPages .html text ∧ Utf8 b text ∧
    (convertFileRun letters (fun _ => true) sampleOut sampleSetup [] {} 5 (fun p => if p = pstr "in/x.html" then some data else none) (pstr "in/x.html") none (pstr "html")).2 =
      .raised e ∧
    (convertFileRun letters (fun _ => true) sampleOut sampleSetup [] {} 5 (fun p => if p = pstr "in/x.html" then some data else none) (pstr "in/x.html") none (pstr "html")).1
      (pstr "in/x.html") = some b :=
  convert_file_destroys letters (fun _ => true) sampleOut sampleSetup [] {} 5 _ (pstr "in/x.html") none (pstr "html") overwrite_counterexample.1 rfl

/-- Two conversions of different files. -/
example : ∀ c c' out out', convertFile letters (pstr "a.pdf") none (pstr "text") = .ok (c, out) → convertFile letters (pstr "b.pdf") none (pstr "text") = .ok (c', out') →
    out ≠ out' ∧ out ≠ pstr "b.pdf" ∧ out' ≠ pstr "a.pdf" := by
  have h1 : convertFile letters (pstr "a.pdf") none (pstr "text") = .ok (.text, pstr "a.text") := by decide
  have h2 : convertFile letters (pstr "b.pdf") none (pstr "text") = .ok (.text, pstr "b.text") := by decide
  rw [h1, h2]
  intro c c' out out' h h'
  cases h; cases h'
  decide

/-- A font in which the code 65 is the glyph `g55296`. -/
def surrogateFont : List (Key × Obj) := [(nm "Type", .name (asc "Font")), (nm "Subtype", .name (asc "Type1")), (nm "BaseFont", .name (asc "X")),
   (nm "Encoding", .dict [(nm "Differences", .arr [.int 65, .name (asc "g55296")])])]

/-- The glyph name `g55296` is read as a surrogate, and a document in which it is shown cannot be converted: the interpreter delivers it without an exception, but
`encode` raises `UnicodeEncodeError`. -/
theorem surrogate_counterexample (W : OutEnv) (garbled : Bytes) :
    convertText { sampleSetup with glyphs := fun _ => none, tables := [], metrics := fun _ => none } {} 200 (writeText surrogateFont [[asc "A"]]) = (textOf 0 [[0xD800]], none) ∧
    (convertFileRun letters (fun _ => true) W { sampleSetup with glyphs := fun _ => none, tables := [], metrics := fun _ => none } garbled {} 200
      (oneFile (writeText surrogateFont [[asc "A"]])) (pstr "a/x.pdf") none (pstr "text")).2 = .raised .valueError := by
  have h : convertText { sampleSetup with glyphs := fun _ => none, tables := [], metrics := fun _ => none } {} 200 (writeText surrogateFont [[asc "A"]]) =
      (textOf 0 [[0xD800]], none) := by decide +kernel
  refine ⟨h, ?_⟩
  obtain ⟨text, r, ⟨e, h1, h2⟩, -, h4⟩ := convert_file_writes letters (fun _ => true) W { sampleSetup with glyphs := fun _ => none, tables := [], metrics := fun _ => none }
    garbled {} 200 (oneFile (writeText surrogateFont [[asc "A"]])) (pstr "a/x.pdf") none (pstr "text") (c := .text) (out := pstr "a/x.text") (by decide) rfl (by decide)
    (data := writeText surrogateFont [[asc "A"]]) rfl
  refine h4 ⟨0xD800, ?_, .inl (by decide)⟩
  rw [h] at h1
  rw [← (Prod.mk.inj h1).1]
  decide +kernel

end Pdf
