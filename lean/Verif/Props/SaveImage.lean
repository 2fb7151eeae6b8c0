import Verif.Spec.SaveImage
import Verif.Props.Filters
import Verif.Props.Bmp
import Mathlib.Tactic.NormNum
import Mathlib.Data.Rat.Floor
import Mathlib.Tactic.Linarith
/-! C105: `save_image`. -/

namespace Pdf
open Spec

/-! ### Names -/

theorem inDir_join {d file path : PyStr} (h : InDir d file path) (hf : ¬ pstr "/" <+: file) : pathJoin d file = path := by
  have hj : ∀ a, pathJoin a file = if a = [] ∨ a.getLast? = some 0x2f then a ++ file else a ++ [0x2f] ++ file := by
    intro a
    unfold pathJoin
    split
    · rename_i r
      exact absurd ⟨r, rfl⟩ hf
    · rfl
  rw [hj]
  cases h with
  | here => simp
  | @slash d file => rw [if_pos (.inr (by simp [pstr]))]
  | plain h1 h2 =>
    rw [if_neg]
    · rfl
    · rintro (h | h)
      · exact h1 h
      · obtain ⟨ys, hys⟩ := List.getLast?_eq_some_iff.1 h
        exact h2 ⟨ys, hys.symm⟩

theorem fileName_base {i : LtImage} {n : Option PyStr} {base : PyStr} (h : BaseName i n base) (ext : PyStr) : i.fileName n ext = base ++ ext := by
  cases n with
  | none => simp only [BaseName] at h; subst h; rfl
  | some n => simp only [BaseName] at h; subst h; rfl

theorem intDigits_nat (k : Nat) : intDigits (k : Int) = numText k := by
  unfold intDigits
  rw [if_neg (by omega)]
  simp

theorem cutFloat_nat {q : ℚ} {k : Nat} (h1 : (k : ℚ) ≤ q) (h2 : q < k + 1) : cutFloat q = k := by
  have h0 : (0 : ℚ) ≤ q := le_trans (by positivity) h1
  unfold cutFloat
  rw [Int.tdiv_eq_ediv_of_nonneg (Rat.num_nonneg.2 h0)]
  have : ⌊q⌋ = (k : Int) := by
    rw [Int.floor_eq_iff]
    exact ⟨by exact_mod_cast h1, by exact_mod_cast h2⟩
  rw [Rat.floor_def'] at this
  exact this

theorem whole_digits {x : PyNum} {k : Nat} (h : WholePart x k) : x.digits = numText k := by
  cases x with
  | int n => simp only [WholePart] at h; subst h; exact intDigits_nat k
  | float q => obtain ⟨h1, h2⟩ := h; simp only [PyNum.digits]; rw [cutFloat_nat h1 h2]; exact intDigits_nat k

/-! ### The choices -/

theorem onlyDct_stages {R : Resolver} {attrs : List (Key × Obj)} {stages : List (Filter × List (Key × Obj))} (h : Stages attrs stages) :
    ∃ fs, getFilters R attrs = .ok fs ∧ (onlyDct fs = true ↔ stages.map (·.1) = [Filter.dct]) := by
  obtain ⟨names, ps, h1, h2, h3⟩ := getFilters_stages (R := R) h
  refine ⟨_, h1, ?_⟩
  have hl : ps.length = names.length := by rw [h2.length_eq, h3.length_eq]; simp
  match names, ps, stages, h2, h3, hl with
  | [], [], stages, h2, _, _ =>
    have : stages.map (·.1) = [] := by
      generalize stages.map (·.1) = fs at h2 ⊢
      cases h2; rfl
    simp [onlyDct, this]
  | [n], [p], stages, h2, _, _ =>
    have key : ∀ f : Filter, FilterNamed n f → (isFilter n ["DCTDecode", "DCT"] = true ↔ f = .dct) := by
      rintro f ⟨s, hs, rfl⟩
      cases f <;> simp only [Filter.names, List.mem_cons, List.not_mem_nil, or_false] at hs <;> rcases hs with rfl | rfl <;> decide +kernel
    generalize stages.map (·.1) = fs at h2 ⊢
    cases h2 with
    | cons hn ht => cases ht; simp only [List.zip_cons_cons, List.zip_nil_left, onlyDct]; rw [key _ hn]; simp
  | n :: n' :: ns, p :: p' :: ps, stages, h2, _, _ =>
    have : stages.map (·.1) ≠ [Filter.dct] := by
      intro e; rw [e] at h2; cases h2 with | cons _ h => cases h
    simp [onlyDct, this]

theorem cmyk_iff {i : LtImage} {co : Option Obj} (h : EitherEntry i.attrs "ColorSpace" "CS" co) : i.cmyk = true ↔
    (co = some (.name (asc "DeviceCMYK")) ∨ ∃ l, co = some (.arr l) ∧ Obj.name (asc "DeviceCMYK") ∈ l) := by
  have hf : ∀ o : Obj, isFilter o ["DeviceCMYK"] = true ↔ o = .name (asc "DeviceCMYK") := by
    intro o
    cases o <;> simp only [isFilter, List.any_cons, List.any_nil, Bool.or_false, beq_iff_eq, Obj.name.injEq, reduceCtorEq, Bool.false_eq_true]
    exact eq_comm
  unfold LtImage.cmyk LtImage.colorspace
  rw [getAny_either h]
  rcases co with _ | o
  · simp only [Option.getD_none, List.any_cons, List.any_nil, Bool.or_false, hf]; simp
  · rw [Option.getD_some]
    cases o with
    | arr l =>
      simp only [List.any_eq_true, hf]
      constructor
      · rintro ⟨x, hx, rfl⟩; exact .inr ⟨l, rfl, hx⟩
      · rintro (h | ⟨l', h, hx⟩)
        · cases h
        · cases h; exact ⟨_, hx, rfl⟩
    | _ =>
      simp only [List.any_cons, List.any_nil, Bool.or_false, hf]
      constructor
      · intro h; exact .inl (by rw [h])
      · rintro (h | ⟨l', h, hx⟩)
        · exact Option.some.inj h
        · simp at h

theorem cmyk_not {i : LtImage} {co : Option Obj} (h : EitherEntry i.attrs "ColorSpace" "CS" co) (hn : ¬ NamesCmyk i.attrs) : i.cmyk = false := by
  rw [← Bool.not_eq_true, cmyk_iff h]
  rintro (rfl | ⟨l, rfl, hm⟩)
  · exact hn ⟨_, h, .inl rfl⟩
  · exact hn ⟨_, h, .inr ⟨l, rfl, hm⟩⟩

theorem bits_are {i : LtImage} {n : Nat} (h : BitsAre i.attrs n) : i.bits = .int n := by
  obtain ⟨bo, h, rfl | ⟨rfl, rfl⟩⟩ := h <;> (unfold LtImage.bits; rw [getAny_either h]; rfl)

theorem bitsAre_nat (n m : Nat) : bitsAre (.int n) m = true ↔ n = m := by
  simp [bitsAre, Obj.num?]

/-! ### Streams -/

theorem getData_of {decode : Bytes → Except PyErr Bytes} {raw : Bytes} {s : StreamSt} (h : StreamOf decode raw s) :
    (s.getData decode).1 = decode raw ∧ StreamOf decode raw (s.getData decode).2 := by
  rcases h with rfl | ⟨d, hd, rfl⟩
  · rcases hr : decode raw with e | d
    · refine ⟨?_, .inl ?_⟩ <;> simp [StreamSt.getData, StreamSt.fresh, hr]
    · refine ⟨?_, .inr ⟨d, hr, ?_⟩⟩ <;> simp [StreamSt.getData, StreamSt.fresh, hr]
  · exact ⟨hd.symm, .inr ⟨d, hd, rfl⟩⟩

theorem getData_again (decode : Bytes → Except PyErr Bytes) (s : StreamSt) : (s.getData decode).2.getData decode = s.getData decode := by
  rcases s with ⟨r, d⟩
  rcases d with _ | d
  · rcases r with _ | r
    · rfl
    · rcases h : decode r with e | d
      · simp [StreamSt.getData, h]
      · simp [StreamSt.getData, h]
  · rfl

/-! ### The bitmap -/

theorem linesTo_ok {w wr : BmpWriter} {l : List (Int × Bytes)} (h : w.writeLines l = .ok wr) : w.linesTo l = (wr, none) := by
  induction l generalizing w with
  | nil => cases h; rfl
  | cons c cs ih =>
    obtain ⟨y, d⟩ := c
    rw [BmpWriter.writeLines] at h
    rw [BmpWriter.linesTo]
    rcases hl : w.writeLine y d with e | w'
    · rw [hl] at h; cases h
    · rw [hl] at h; exact ih h

theorem bmpSave_ok {decode : Bytes → Except PyErr Bytes} {s : StreamSt} {w h : Int} {data : Bytes} {wr : BmpWriter}
    (hd : (s.getData decode).1 = .ok data) (hw : bmpWriteAll data w h ((w + 7) / 8) = .ok wr) :
    bmpSave decode s (.int w) (.int h) = (wr.fp.content, none, (s.getData decode).2) := by
  unfold bmpWriteAll at hw
  unfold bmpSave
  dsimp only
  rcases hb : bmpNew 1 w h with e | bmp
  · rw [hb] at hw; cases hw
  · rw [hb] at hw
    dsimp only
    rw [hd, bmpBody]
    dsimp only
    rw [linesTo_ok hw]

/-! ### The files -/

theorem wrote_write (F : Files) (path : PyStr) (d : Bytes) : Wrote F (F.write path d) path d :=
  ⟨by simp [Files.write], fun q hq => by simp [Files.write, hq]⟩

theorem files_write_twice (F : Files) (path : PyStr) (d : Bytes) : (F.write path d).write path d = F.write path d := by
  funext q; unfold Files.write; split <;> rfl

/-- The last step of `save_image`. -/
theorem save_of {i : LtImage} {R : Resolver} {canOpen : PyStr → Bool} {invert : Option (Bytes → Except PyErr Bytes)} {F : Files} {s s' : StreamSt}
    {outdir : PyStr} {fileName : Option PyStr} {filters : List (Obj × Obj)} {k : ImageKind} {base ext path : PyStr} {d : Bytes} {err : Option PyErr}
    (hg : getFilters R i.attrs = .ok filters) (hk : i.kind filters = k) (he : i.ext k = .ok ext) (hb : BaseName i fileName base)
    (hp : InDir outdir (base ++ ext) path) (hs : ¬ pstr "/" <+: base ++ ext) (ho : canOpen path = true) (hf : i.fill invert s k = (d, err, s')) :
    i.save R canOpen invert F s outdir fileName = (F.write path d, s', match (generalizing := false) err with | none => .ok path | some e => .error e) := by
  unfold LtImage.save
  rw [hg]
  dsimp only
  rw [hk, he]
  dsimp only
  rw [fileName_base hb, inDir_join hp hs, if_pos ho, hf]
  cases err <;> rfl

/-- **C105.** An image whose only filter is `DCTDecode` is saved with the extension `.jpg`, and the file holds exactly the bytes of the stream in the PDF
file. The path is returned, the stream is as before, and no other file changes. The colour space must not name `DeviceCMYK`, and nobody may have asked for the
decoded data before. -/
theorem save_jpeg {i : LtImage} {params : List (Key × Obj)} (hd : Stages i.attrs [(.dct, params)]) {co : Option Obj}
    (hco : EitherEntry i.attrs "ColorSpace" "CS" co) (hc : ¬ NamesCmyk i.attrs) (R : Resolver) (canOpen : PyStr → Bool)
    (invert : Option (Bytes → Except PyErr Bytes)) (F : Files) (raw : Bytes) {outdir base path : PyStr} {fileName : Option PyStr}
    (hb : BaseName i fileName base) (hp : InDir outdir (base ++ pstr ".jpg") path) (hs : ¬ pstr "/" <+: base ++ pstr ".jpg") (ho : canOpen path = true) :
    ∃ F', i.save R canOpen invert F (.fresh raw) outdir fileName = (F', .fresh raw, .ok path) ∧ Wrote F F' path raw := by
  obtain ⟨fs, h1, h2⟩ := onlyDct_stages (R := R) hd
  refine ⟨F.write path raw, ?_, wrote_write F path raw⟩
  have hk : i.kind fs = .jpg := by unfold LtImage.kind; rw [if_pos (h2.2 rfl)]
  refine save_of (err := none) h1 hk rfl hb hp hs ho ?_
  show ((jpgSave invert i.cmyk (.fresh raw)).1, (jpgSave invert i.cmyk (.fresh raw)).2, _) = _
  rw [cmyk_not hco hc]
  rfl

/-- **C105.** An image of one bit per component, coded in any way but DCT alone, in a box of `w` by `h` units (whole numbers), is saved with the extension
`.w<w>h<h>.bmp`. The file is a bitmap of `w` by `h` pixels with the rows of the decoded data, whether or not the data were asked for before; no other file
changes. -/
theorem save_bitmap {i : LtImage} {stages : List (Filter × List (Key × Obj))} (hd : Stages i.attrs stages) (hn : stages.map (·.1) ≠ [Filter.dct])
    (hbits : BitsAre i.attrs 1) (R : Resolver) (canOpen : PyStr → Bool) (invert : Option (Bytes → Except PyErr Bytes)) (F : Files)
    {raw data : Bytes} {s : StreamSt} (hs : StreamOf i.decode raw s) (hdec : i.decode raw = .ok data)
    {w h : Nat} (hw : i.width = .int w) (hh : i.height = .int h) (h0 : 0 < w) (hfit : BmpFits 1 w h) (hlen : (w + 7) / 8 * h ≤ data.length)
    {outdir base path : PyStr} {fileName : Option PyStr} (hb : BaseName i fileName base)
    (hp : InDir outdir (base ++ (pstr ".w" ++ numText w ++ pstr "h" ++ numText h ++ pstr ".bmp")) path)
    (hsl : ¬ pstr "/" <+: base ++ (pstr ".w" ++ numText w ++ pstr "h" ++ numText h ++ pstr ".bmp")) (ho : canOpen path = true) :
    ∃ F' s' file, i.save R canOpen invert F s outdir fileName = (F', s', .ok path) ∧ Wrote F F' path file ∧ Bitmap file w h data ∧
      StreamOf i.decode raw s' := by
  obtain ⟨fs, h1, h2⟩ := onlyDct_stages (R := R) hd
  have hbi := bits_are hbits
  have b1 : bitsAre i.bits 1 = true := by rw [hbi]; exact (bitsAre_nat 1 1).2 rfl
  have hk : i.kind fs = .bmp := by
    unfold LtImage.kind
    rw [if_neg (fun h => hn (h2.1 h)), if_pos (.inl b1)]
  obtain ⟨wr, e1, e2, e3, e4, e5⟩ := bmp_write_all w h hfit h0 data hlen
  obtain ⟨g1, g2⟩ := getData_of hs
  have e1' : bmpWriteAll data w h (((w : Int) + 7) / 8) = .ok wr := by
    rw [← e1]; congr 1
  refine ⟨F.write path wr.fp.content, (s.getData i.decode).2, wr.fp.content, ?_, wrote_write F path _, ⟨e2, e3, e4, e5⟩, g2⟩
  refine save_of (err := none) h1 hk ?_ hb hp hsl ho ?_
  · simp only [LtImage.ext, hw, hh, PyNum.digits, intDigits_nat]
  · simp only [LtImage.fill, b1, if_true, hw, hh]
    exact bmpSave_ok (g1.trans hdec) e1'

/-- **C105.** An image with another number of bits, coded in any way but DCT alone, is saved with the extension `.b<bits>w<w>h<h>.img`; `w` and `h` are the width
and the height of its box, cut to whole numbers. The file holds exactly the decoded data, whether or not they were asked for before. So an image with eight bits
is never saved as a bitmap, whatever its colour space is. -/
theorem save_raw {i : LtImage} {stages : List (Filter × List (Key × Obj))} (hd : Stages i.attrs stages) (hn : stages.map (·.1) ≠ [Filter.dct])
    {b : Nat} (hbits : BitsAre i.attrs b) (hb1 : b ≠ 1) (R : Resolver) (canOpen : PyStr → Bool) (invert : Option (Bytes → Except PyErr Bytes)) (F : Files)
    {raw data : Bytes} {s : StreamSt} (hs : StreamOf i.decode raw s) (hdec : i.decode raw = .ok data)
    {w h : Nat} (hw : WholePart i.width w) (hh : WholePart i.height h)
    {outdir base path : PyStr} {fileName : Option PyStr} (hb : BaseName i fileName base)
    (hp : InDir outdir (base ++ (pstr ".b" ++ numText b ++ pstr "w" ++ numText w ++ pstr "h" ++ numText h ++ pstr ".img")) path)
    (hsl : ¬ pstr "/" <+: base ++ (pstr ".b" ++ numText b ++ pstr "w" ++ numText w ++ pstr "h" ++ numText h ++ pstr ".img")) (ho : canOpen path = true) :
    ∃ F' s', i.save R canOpen invert F s outdir fileName = (F', s', .ok path) ∧ Wrote F F' path data ∧ StreamOf i.decode raw s' := by
  obtain ⟨fs, h1, h2⟩ := onlyDct_stages (R := R) hd
  have hbi := bits_are hbits
  have b1 : bitsAre i.bits 1 = false := by
    rw [hbi, ← Bool.not_eq_true]; exact fun h => hb1 ((bitsAre_nat b 1).1 h)
  have hk : i.kind fs = .img := by
    unfold LtImage.kind
    rw [if_neg (fun h => hn (h2.1 h)), if_neg (by simp [b1, listIsLiteral])]
  obtain ⟨g1, g2⟩ := getData_of hs
  refine ⟨F.write path data, (s.getData i.decode).2, ?_, wrote_write F path _, g2⟩
  refine save_of (err := none) h1 hk ?_ hb hp hsl ho ?_
  · simp only [LtImage.ext, hbi, bitsDigits, intDigits_nat, whole_digits hw, whole_digits hh, bind, Except.bind]
  · simp only [LtImage.fill, b1, Bool.false_eq_true, if_false, rawSave]
    rw [show s.getData i.decode = ((s.getData i.decode).1, (s.getData i.decode).2) from rfl, g1, hdec]

/-- **C105.** An image whose data cannot be decoded is not saved without notice: the exception that decoding raises comes out, and an empty file is left in the
place. -/
theorem save_undecodable {i : LtImage} {stages : List (Filter × List (Key × Obj))} (hd : Stages i.attrs stages) (hn : stages.map (·.1) ≠ [Filter.dct])
    {b : Nat} (hbits : BitsAre i.attrs b) (hb1 : b ≠ 1) (R : Resolver) (canOpen : PyStr → Bool) (invert : Option (Bytes → Except PyErr Bytes)) (F : Files)
    {raw : Bytes} {s : StreamSt} (hs : StreamOf i.decode raw s) {e : PyErr} (hdec : i.decode raw = .error e)
    {w h : Nat} (hw : WholePart i.width w) (hh : WholePart i.height h)
    {outdir base path : PyStr} {fileName : Option PyStr} (hb : BaseName i fileName base)
    (hp : InDir outdir (base ++ (pstr ".b" ++ numText b ++ pstr "w" ++ numText w ++ pstr "h" ++ numText h ++ pstr ".img")) path)
    (hsl : ¬ pstr "/" <+: base ++ (pstr ".b" ++ numText b ++ pstr "w" ++ numText w ++ pstr "h" ++ numText h ++ pstr ".img")) (ho : canOpen path = true) :
    ∃ F' s', i.save R canOpen invert F s outdir fileName = (F', s', .error e) ∧ Wrote F F' path [] ∧ StreamOf i.decode raw s' := by
  obtain ⟨fs, h1, h2⟩ := onlyDct_stages (R := R) hd
  have hbi := bits_are hbits
  have b1 : bitsAre i.bits 1 = false := by
    rw [hbi, ← Bool.not_eq_true]; exact fun h => hb1 ((bitsAre_nat b 1).1 h)
  have hk : i.kind fs = .img := by
    unfold LtImage.kind
    rw [if_neg (fun h => hn (h2.1 h)), if_neg (by simp [b1, listIsLiteral])]
  obtain ⟨g1, g2⟩ := getData_of hs
  refine ⟨F.write path [], (s.getData i.decode).2, ?_, wrote_write F path _, g2⟩
  refine save_of (err := some e) h1 hk ?_ hb hp hsl ho ?_
  · simp only [LtImage.ext, hbi, bitsDigits, intDigits_nat, whole_digits hw, whole_digits hh, bind, Except.bind]
  · simp only [LtImage.fill, b1, Bool.false_eq_true, if_false, rawSave]
    rw [show s.getData i.decode = ((s.getData i.decode).1, (s.getData i.decode).2) from rfl, g1, hdec]

/-- **C105.** Nor is any other image but one coded by DCT alone: whatever its bits and its box, if its data cannot be decoded no path is returned. -/
theorem save_never {i : LtImage} {stages : List (Filter × List (Key × Obj))} (hd : Stages i.attrs stages) (hn : stages.map (·.1) ≠ [Filter.dct])
    (R : Resolver) (canOpen : PyStr → Bool) (invert : Option (Bytes → Except PyErr Bytes)) (F : Files)
    {raw : Bytes} {s : StreamSt} (hs : StreamOf i.decode raw s) {e : PyErr} (hdec : i.decode raw = .error e) (outdir : PyStr) (fileName : Option PyStr) :
    ∃ F' s' x, i.save R canOpen invert F s outdir fileName = (F', s', .error x) := by
  obtain ⟨fs, h1, h2⟩ := onlyDct_stages (R := R) hd
  obtain ⟨g1, g2⟩ := getData_of hs
  rw [hdec] at g1
  unfold LtImage.save
  rw [h1]
  dsimp only
  rcases i.ext (i.kind fs) with x | ext
  · exact ⟨_, _, _, rfl⟩
  dsimp only
  split
  · have hk : i.kind fs ≠ .jpg := by
      unfold LtImage.kind
      rw [if_neg (fun h => hn (h2.1 h))]
      split <;> simp
    have hf : ∃ d x s', i.fill invert s (i.kind fs) = (d, some x, s') := by
      have : i.fill invert s (i.kind fs) = if bitsAre i.bits 1 then bmpSave i.decode s i.width i.height else rawSave i.decode s := by
        generalize i.kind fs = k at hk
        cases k with
        | jpg => exact absurd rfl hk
        | bmp => rfl
        | img => rfl
      rw [this]
      split
      · unfold bmpSave
        split
        · split
          · exact ⟨_, _, _, rfl⟩
          · rw [g1]; exact ⟨_, _, _, rfl⟩
        · exact ⟨_, _, _, rfl⟩
      · unfold rawSave
        rw [show s.getData i.decode = ((s.getData i.decode).1, (s.getData i.decode).2) from rfl, g1]
        exact ⟨_, _, _, rfl⟩
    obtain ⟨d, x, s', hf⟩ := hf
    rw [hf]
    exact ⟨_, _, _, rfl⟩
  · exact ⟨_, _, _, rfl⟩

/-- **C105.** A one-bit image in a box whose width or height is a float, even a whole number such as `8.0`, cannot be saved: `struct.error` is raised and an
empty file is left. -/
theorem save_float {i : LtImage} {stages : List (Filter × List (Key × Obj))} (hd : Stages i.attrs stages) (hn : stages.map (·.1) ≠ [Filter.dct])
    (hbits : BitsAre i.attrs 1) (R : Resolver) (canOpen : PyStr → Bool) (invert : Option (Bytes → Except PyErr Bytes)) (F : Files) (s : StreamSt)
    {w h : Nat} (hw : WholePart i.width w) (hh : WholePart i.height h) (hfl : (∃ q, i.width = .float q) ∨ ∃ q, i.height = .float q)
    {outdir base path : PyStr} {fileName : Option PyStr} (hb : BaseName i fileName base)
    (hp : InDir outdir (base ++ (pstr ".w" ++ numText w ++ pstr "h" ++ numText h ++ pstr ".bmp")) path)
    (hsl : ¬ pstr "/" <+: base ++ (pstr ".w" ++ numText w ++ pstr "h" ++ numText h ++ pstr ".bmp")) (ho : canOpen path = true) :
    ∃ F', i.save R canOpen invert F s outdir fileName = (F', s, .error .structError) ∧ Wrote F F' path [] := by
  obtain ⟨fs, h1, h2⟩ := onlyDct_stages (R := R) hd
  have hbi := bits_are hbits
  have b1 : bitsAre i.bits 1 = true := by rw [hbi]; exact (bitsAre_nat 1 1).2 rfl
  have hk : i.kind fs = .bmp := by
    unfold LtImage.kind
    rw [if_neg (fun h => hn (h2.1 h)), if_pos (.inl b1)]
  refine ⟨F.write path [], ?_, wrote_write F path _⟩
  refine save_of (err := some .structError) h1 hk ?_ hb hp hsl ho ?_
  · simp only [LtImage.ext, whole_digits hw, whole_digits hh]
  · simp only [LtImage.fill, b1, if_true]
    rcases hfl with ⟨q, hq⟩ | ⟨q, hq⟩
    · rw [hq]; rfl
    · rw [hq]; cases i.width <;> rfl

/-- **C105.** Whatever happens, at most one file changes, and if the call succeeds it is the file at the path that is returned. -/
theorem save_frame (i : LtImage) (R : Resolver) (canOpen : PyStr → Bool) (invert : Option (Bytes → Except PyErr Bytes)) (F : Files) (s : StreamSt)
    (outdir : PyStr) (fileName : Option PyStr) :
    ∃ path, (∀ q, q ≠ path → (i.save R canOpen invert F s outdir fileName).1 q = F q) ∧
      (∀ r, (i.save R canOpen invert F s outdir fileName).2.2 = .ok r → r = path ∧ ∃ d, (i.save R canOpen invert F s outdir fileName).1 path = some d) := by
  unfold LtImage.save
  rcases getFilters R i.attrs with e | fs
  · exact ⟨[], fun _ _ => rfl, fun r h => by cases h⟩
  dsimp only
  rcases i.ext (i.kind fs) with e | ext
  · exact ⟨[], fun _ _ => rfl, fun r h => by cases h⟩
  dsimp only
  generalize pathJoin outdir (i.fileName fileName ext) = path
  refine ⟨path, ?_, ?_⟩
  · intro q hq
    split
    · rcases i.fill invert s (i.kind fs) with ⟨d, e, s'⟩
      cases e <;> exact (wrote_write F path d).2 q hq
    · rfl
  · intro r
    split
    · rcases i.fill invert s (i.kind fs) with ⟨d, e, s'⟩
      cases e with
      | none => intro h; cases h; exact ⟨rfl, d, (wrote_write F path d).1⟩
      | some e => intro h; cases h
    · intro h; cases h

theorem fill_again (i : LtImage) (invert : Option (Bytes → Except PyErr Bytes)) (s : StreamSt) (k : ImageKind) :
    i.fill invert (i.fill invert s k).2.2 k = i.fill invert s k := by
  have hraw : rawSave i.decode (rawSave i.decode s).2.2 = rawSave i.decode s := by
    have h : (rawSave i.decode s).2.2 = (s.getData i.decode).2 := by
      unfold rawSave; rcases s.getData i.decode with ⟨_ | _, _⟩ <;> rfl
    rw [h]; unfold rawSave; rw [getData_again]
  have hbmp : bmpSave i.decode (bmpSave i.decode s i.width i.height).2.2 i.width i.height = bmpSave i.decode s i.width i.height := by
    rcases i.width with w | w <;> rcases i.height with h | h <;> try rfl
    unfold bmpSave
    dsimp only
    rcases bmpNew 1 w h with e | bmp
    · rfl
    · dsimp only; rw [getData_again]
  cases k
  · rfl
  all_goals
    simp only [LtImage.fill]
    split
    · exact hbmp
    · exact hraw

/-- **C105.** Saving an image a second time under the same name changes nothing: the files, the stream and the result are as after the first time, also if it
failed. -/
theorem save_again (i : LtImage) (R : Resolver) (canOpen : PyStr → Bool) (invert : Option (Bytes → Except PyErr Bytes)) (F F' : Files) (s s' : StreamSt)
    (outdir : PyStr) (fileName : Option PyStr) (r : Except PyErr PyStr) (h : i.save R canOpen invert F s outdir fileName = (F', s', r)) :
    i.save R canOpen invert F' s' outdir fileName = (F', s', r) := by
  unfold LtImage.save at h ⊢
  rcases hg : getFilters R i.attrs with e | fs
  · rw [hg] at h; cases h; rfl
  rw [hg] at h
  dsimp only at h ⊢
  rcases hx : i.ext (i.kind fs) with e | ext
  · rw [hx] at h; cases h; rfl
  rw [hx] at h
  dsimp only at h ⊢
  split at h
  · rename_i ho
    rw [if_pos ho]
    have ha := fill_again i invert s (i.kind fs)
    rcases hf : i.fill invert s (i.kind fs) with ⟨d, e, s1⟩
    rw [hf] at h ha
    dsimp only at ha
    cases e with
    | none => cases h; rw [ha]; dsimp only; rw [files_write_twice]
    | some e => cases h; rw [ha]; dsimp only; rw [files_write_twice]
  · rename_i ho
    cases h
    rw [if_neg ho]

/-- Saving keeps a stream as one of its states. -/
theorem save_stream {i : LtImage} {R : Resolver} {canOpen : PyStr → Bool} {invert : Option (Bytes → Except PyErr Bytes)} {F : Files} {raw : Bytes} {s : StreamSt}
    (hs : StreamOf i.decode raw s) (outdir : PyStr) (fileName : Option PyStr) :
    StreamOf i.decode raw (i.save R canOpen invert F s outdir fileName).2.1 := by
  have hfill : ∀ k, StreamOf i.decode raw (i.fill invert s k).2.2 := by
    intro k
    have hraw : StreamOf i.decode raw (rawSave i.decode s).2.2 := by
      have h : (rawSave i.decode s).2.2 = (s.getData i.decode).2 := by
        unfold rawSave; rcases s.getData i.decode with ⟨_ | _, _⟩ <;> rfl
      rw [h]; exact (getData_of hs).2
    have hbmp : StreamOf i.decode raw (bmpSave i.decode s i.width i.height).2.2 := by
      rcases i.width with w | w <;> rcases i.height with h | h <;> try exact hs
      unfold bmpSave
      dsimp only
      rcases bmpNew 1 w h with e | bmp
      · exact hs
      · exact (getData_of hs).2
    cases k
    · exact hs
    all_goals
      simp only [LtImage.fill]
      split
      · exact hbmp
      · exact hraw
  unfold LtImage.save
  rcases getFilters R i.attrs with e | fs
  · exact hs
  dsimp only
  rcases i.ext (i.kind fs) with e | ext
  · exact hs
  dsimp only
  split
  · have := hfill (i.kind fs)
    rcases hf : i.fill invert s (i.kind fs) with ⟨d, e, s1⟩
    rw [hf] at this
    cases e <;> exact this
  · exact hs

/-- **C105.** The same for an image that was coded by any chain of filters (C08), in a document that may be encrypted: what is saved are the samples that were coded. -/
theorem save_coded {i : LtImage} {R : Resolver} (hR : ∀ n : Int, R.resolve1 (.int n) = .ok (.int n)) (deflated : Bytes → Bytes → Prop)
    (inflate : Bytes → Option Bytes) (hz : ∀ plain coded, deflated plain coded → inflate coded = some plain)
    {stages : List (Filter × List (Key × Obj))} (hd : Stages i.attrs stages) (hn : stages.map (·.1) ≠ [Filter.dct])
    {plain coded raw : Bytes} (hc : Chain R deflated stages plain coded) (decipher : Option (Bytes → Except PyErr Bytes))
    (hdec : match decipher with | some f => f raw = .ok coded | none => raw = coded)
    (hi : i.decode = decodeStream R inflate decipher i.attrs)
    {b : Nat} (hbits : BitsAre i.attrs b) (hb1 : b ≠ 1) (canOpen : PyStr → Bool) (invert : Option (Bytes → Except PyErr Bytes)) (F : Files)
    {s : StreamSt} (hs : StreamOf i.decode raw s) {w h : Nat} (hw : WholePart i.width w) (hh : WholePart i.height h)
    {outdir base path : PyStr} {fileName : Option PyStr} (hb : BaseName i fileName base)
    (hp : InDir outdir (base ++ (pstr ".b" ++ numText b ++ pstr "w" ++ numText w ++ pstr "h" ++ numText h ++ pstr ".img")) path)
    (hsl : ¬ pstr "/" <+: base ++ (pstr ".b" ++ numText b ++ pstr "w" ++ numText w ++ pstr "h" ++ numText h ++ pstr ".img")) (ho : canOpen path = true) :
    ∃ F' s', i.save R canOpen invert F s outdir fileName = (F', s', .ok path) ∧ Wrote F F' path plain ∧ StreamOf i.decode raw s' :=
  save_raw hd hn hbits hb1 R canOpen invert F hs (by rw [hi]; exact stream_data_partial R hR deflated inflate hz _ stages hd plain coded raw hc decipher hdec)
    hw hh hb hp hsl ho

/-! ### Limits -/

/-- A document without objects. -/
def noObjects : Resolver := ⟨.ok, fun _ => .error .pdfObjectNotFound⟩

/-- A one-bit image of 16 by 2 pixels, without filters. -/
def sampleImage (w h : PyNum) : LtImage where
  name := pstr "im"
  attrs := [(nm "Width", .int 16), (nm "Height", .int 2), (nm "ColorSpace", .name (asc "DeviceGray"))]
  decode := .ok
  width := w
  height := h

/-- An image with a filter and a colour space, of eight bits per component. -/
def sampleRgb (filter space : String) (decode : Bytes → Except PyErr Bytes) : LtImage where
  name := pstr "im"
  attrs := [(nm "Width", .int 2), (nm "Height", .int 1), (nm "Filter", .name (asc filter)), (nm "ColorSpace", .name (asc space)), (nm "BitsPerComponent", .int 8)]
  decode := decode
  width := .int 2
  height := .int 1

/-- **C105, limit.** The size of the bitmap is the size of the box on the page, not that of the image: shown at half its size, an image of 16 by 2 pixels is saved
as one of 8 by 1 pixels, with the left half of the first row. -/
theorem save_scaled_counterexample :
    let r := (sampleImage (.int 8) (.int 1)).save noObjects (fun _ => true) none (fun _ => none) (.fresh [1, 2, 3, 4]) (pstr "d") none
    let file := (r.1 (pstr "d/im.w8h1.bmp")).getD []
    r.2.2 = .ok (pstr "d/im.w8h1.bmp") ∧ bmpWidth file = 8 ∧ bmpHeight file = 1 ∧ bmpRow file 0 = [1] ∧ file.drop 62 = [1] := by
  decide +kernel

/-- **C105, limit.** A JPEG image of an encrypted document is saved as it is in the PDF file, without being deciphered. -/
theorem save_locked_counterexample :
    ((sampleRgb "DCTDecode" "DeviceRGB" fun raw => .ok (raw.map (· ^^^ 1))).save noObjects (fun _ => true) none (fun _ => none)
      (.fresh [0, 1, 2]) (pstr "d") none).1 (pstr "d/im.jpg") = some [0, 1, 2] ∧
    (StreamSt.getData (fun raw => .ok (raw.map (· ^^^ 1))) (.fresh [0, 1, 2])).1 = .ok [1, 0, 3] := by
  decide +kernel

/-- **C105, limit.** A JPEG image cannot be saved after its data were asked for: `TypeError` is raised, and a file that was saved before is emptied. -/
theorem save_asked_counterexample :
    let i := sampleRgb "DCTDecode" "DeviceRGB" .ok
    let r := i.save noObjects (fun _ => true) none (fun _ => some [7]) ((StreamSt.fresh [0, 1, 2]).getData i.decode).2 (pstr "d") none
    r.1 (pstr "d/im.jpg") = some [] ∧ r.2.2 = .error .typeError := by
  decide +kernel

/-- **C105, limit.** A JPEG image in the colour space `DeviceCMYK` is not saved unless the program has loaded `PIL.Image` itself. -/
theorem save_cmyk_counterexample :
    let r := (sampleRgb "DCTDecode" "DeviceCMYK" .ok).save noObjects (fun _ => true) none (fun _ => none) (.fresh [0, 1, 2]) (pstr "d") none
    r.1 (pstr "d/im.jpg") = some [] ∧ r.2.2 = .error .attributeError := by
  decide +kernel

/-- **C105, limit.** An image with an unknown filter and no number of bits is taken for a one-bit image: an error is raised, and the header of a bitmap is left. -/
theorem save_unknown_counterexample :
    let r := ({ sampleImage (.int 16) (.int 2) with decode := fun _ => .error .nameError } : LtImage).save noObjects (fun _ => true) none
      (fun _ => none) (.fresh [0, 1, 2]) (pstr "d") none
    (r.1 (pstr "d/im.w16h2.bmp")).map List.length = some 62 ∧ r.2.2 = .error .nameError := by
  decide +kernel

/-! ### The hypotheses are met -/

theorem sampleImage_stages (w h : PyNum) : Stages (sampleImage w h).attrs [] :=
  ⟨by simp only [sampleImage]; decide +kernel, none, none, .inl (by simp only [sampleImage]; decide +kernel), .inl (by simp only [sampleImage]; decide +kernel), .inl ⟨rfl, rfl⟩⟩

theorem sampleImage_bits (w h : PyNum) : BitsAre (sampleImage w h).attrs 1 := ⟨none, .inl (by simp only [sampleImage]; decide +kernel), .inr ⟨rfl, rfl⟩⟩

theorem sampleRgb_dct : Stages (sampleRgb "DCTDecode" "DeviceRGB" .ok).attrs [(.dct, [])] :=
  ⟨by decide +kernel, some (.name (asc "DCTDecode")), none, .inr (by decide +kernel), .inl (by decide +kernel),
    .inr ⟨[.name (asc "DCTDecode")], .cons ⟨"DCTDecode", by decide, rfl⟩ .nil, .inr ⟨_, rfl, rfl⟩, .inl ⟨rfl, by simp⟩⟩⟩

example : EitherEntry (sampleRgb "DCTDecode" "DeviceRGB" .ok).attrs "ColorSpace" "CS" (some (.name (asc "DeviceRGB"))) := .inr (by decide +kernel)

example : ¬ NamesCmyk (sampleRgb "DCTDecode" "DeviceRGB" .ok).attrs := by
  rintro ⟨co, h, hc⟩
  have e : EitherEntry (sampleRgb "DCTDecode" "DeviceRGB" .ok).attrs "ColorSpace" "CS" (some (.name (asc "DeviceRGB"))) := .inr (by decide +kernel)
  have := (getAny_either h).symm.trans (getAny_either e)
  cases Option.some.inj this
  rcases hc with h | ⟨l, h, -⟩
  · revert h; decide +kernel
  · cases h

example : BitsAre (sampleRgb "LZWDecode" "DeviceRGB" .ok).attrs 8 := ⟨some (.int 8), .inr (by decide +kernel), .inl rfl⟩
example : BmpFits 1 16 2 := ⟨.inl rfl, by norm_num, by norm_num, by decide⟩
example : WholePart (.float (17 / 2)) 8 := by constructor <;> norm_num
example : InDir (pstr "out") (pstr "im" ++ pstr ".jpg") (pstr "out/im.jpg") := .plain (by decide) (by decide)
example : ¬ pstr "/" <+: pstr "im" ++ pstr ".jpg" := by decide
example : ∃ F' s' file, (sampleImage (.int 16) (.int 2)).save noObjects (fun _ => true) none (fun _ => none) (.fresh [1, 2, 3, 4]) (pstr "d") none =
    (F', s', .ok (pstr "d/im.w16h2.bmp")) ∧ Wrote (fun _ => none) F' (pstr "d/im.w16h2.bmp") file ∧ Bitmap file 16 2 [1, 2, 3, 4] ∧
    StreamOf .ok [1, 2, 3, 4] s' :=
  save_bitmap (sampleImage_stages _ _) (by simp) (sampleImage_bits _ _) _ _ _ _ (.inl rfl) rfl rfl rfl (by norm_num)
    ⟨.inl rfl, by norm_num, by norm_num, by decide⟩ (by decide) (base := pstr "im") rfl
    (by rw [show pstr "d/im.w16h2.bmp" = pstr "d" ++ pstr "/" ++ (pstr "im" ++ (pstr ".w" ++ numText 16 ++ pstr "h" ++ numText 2 ++ pstr ".bmp")) by decide +kernel]
        exact .plain (by decide) (by decide))
    (by decide +kernel) rfl

end Pdf
