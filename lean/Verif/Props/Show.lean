import Verif.Props.TextLines
import Verif.Spec.Glyphs
/-! Positions of glyphs (C39). -/

namespace Pdf
open Pdf.Spec

/-- The events of the operand of `TJ`: numbers and the codes of the strings. -/
inductive Events (font : Font) : List Obj → List Ev → Prop where
  | nil : Events font [] []
  | number {o : Obj} {q : ℚ} {os : List Obj} {es : List Ev} (h : o.num? = some q) (hs : Events font os es) : Events font (o :: os) (.move q :: es)
  | string {b : Bytes} {cids : List Int} {os : List Obj} {es : List Ev} (h : font.decode b = .ok cids) (hs : Events font os es) :
      Events font (.str b :: os) (cids.map .glyph ++ es)

/-- The rectangle of a glyph relative to its origin (PDF 32000-1, 9.7.4.3 for vertical writing), by two opposite corners. -/
inductive GlyphRect (font : Font) (size scaling rise : ℚ) (cid : Int) : ℚ × ℚ → ℚ × ℚ → Prop where
  | horizontal {w h d : ℚ} (hv : font.vertical = false) (hw : font.charWidth cid = .ok w) (hh : font.height = .ok h) (hd : font.descent = .ok d) :
      GlyphRect font size scaling rise cid (0, d * size + rise) (w * size * scaling, d * size + rise + h * size)
  | vertical {w vy fw : ℚ} {vx : Option ℚ} (hv : font.vertical = true) (hw : font.charWidth cid = .ok w) (hd : font.charDisp cid = .ok (vx, vy))
      (hf : font.width = .ok fw) :
      GlyphRect font size scaling rise cid
        (-(match vx with | none => fw * size / 2 | some x => x * size / 1000), (1000 - vy) * size / 1000 + rise + w * size * scaling)
        (-(match vx with | none => fw * size / 2 | some x => x * size / 1000) + fw * size, (1000 - vy) * size / 1000 + rise)

/-- The box with the corners `c`: the bounds of the points `p` and `q`. -/
def Bounds (p q : ℚ × ℚ) (c : (ℚ × ℚ) × (ℚ × ℚ)) : Prop := c = ((min p.1 q.1, min p.2 q.2), (max p.1 q.1, max p.2 q.2))

/-- The pen on the line: it moves along the writing direction. -/
def along (vertical : Bool) (base : ℚ × ℚ) (x : ℚ) : ℚ × ℚ := if vertical then (base.1, x) else (x, base.2)

/-- The coordinate of the pen in the writing direction. -/
def coord (vertical : Bool) (l : ℚ × ℚ) : ℚ := if vertical then l.2 else l.1

theorem along_coord (v : Bool) (l : ℚ × ℚ) : along v l (coord v l) = l := by cases v <;> rfl

theorem bump_along (v : Bool) (base : ℚ × ℚ) (x d : ℚ) : bump v (along v base x) d = along v base (x + d) := by cases v <;> rfl

/-- The character shown for the code: its text, and the bounds of the glyph's rectangle with the pen at `x`. -/
def Painted (font : Font) (p : ShowPar) (ignoreBad : Bool) (rise : ℚ) (base : ℚ × ℚ) (g : Int × ℚ) (c : Text × (ℚ × ℚ) × (ℚ × ℚ)) : Prop :=
  toText font ignoreBad g.1 = .ok c.1 ∧
    ∃ a b, GlyphRect font p.fontsize p.scaling rise g.1 a b ∧
      Bounds (applyPt p.matrix (a.1 + (along font.vertical base g.2).1, a.2 + (along font.vertical base g.2).2))
        (applyPt p.matrix (b.1 + (along font.vertical base g.2).1, b.2 + (along font.vertical base g.2).2)) c.2

/-- What the parameters mean, given the widths. -/
def paceOf (p : ShowPar) (cs ws : ℚ) (width : Int → ℚ) : Pace := ⟨p.fontsize, p.scaling, cs, ws, width⟩

theorem charBbox_painted {font : Font} {p : ShowPar} {l : ℚ × ℚ} {cid : Int} {r : ℚ × (ℚ × ℚ) × (ℚ × ℚ)} {rise : ℚ} (hr : p.rise.num? = some rise)
    (h : charBbox font p (translateMatrix p.matrix l) cid = .ok r) :
    (∃ w, font.charWidth cid = .ok w ∧ r.1 = w * p.fontsize * p.scaling) ∧
    ∃ a b, GlyphRect font p.fontsize p.scaling rise cid a b ∧ Bounds (applyPt p.matrix (a.1 + l.1, a.2 + l.2)) (applyPt p.matrix (b.1 + l.1, b.2 + l.2)) r.2 := by
  simp only [charBbox, bind, Except.bind, num_of hr] at h
  split at h
  · cases h
  · rename_i w hw
    have ta := fun v => (translate_apply p.matrix l v).1
    split at h
    · rename_i hv
      split at h
      · cases h
      · rename_i disp hd
        split at h
        · cases h
        · rename_i fw hf
          cases h
          obtain ⟨vx, vy⟩ := disp
          refine ⟨⟨w, hw, rfl⟩, _, _, .vertical hv hw hd hf, ?_⟩
          simp only [Bounds, ta]
          cases vx <;> rfl
    · rename_i hv
      split at h
      · cases h
      · rename_i fh hh
        split at h
        · cases h
        · rename_i fd hd
          cases h
          refine ⟨⟨w, hw, rfl⟩, _, _, .horizontal (by simpa using hv) hw hh hd, ?_⟩
          simp only [Bounds, ta]

theorem forall2_snoc {α β : Type} {R : α → β → Prop} {l : List α} {m : List β} {a : α} {b : β} (h : List.Forall₂ R l m) (hab : R a b) : List.Forall₂ R (l ++ [a]) (m ++ [b]) :=
  List.rel_append h (.cons hab .nil)

/-- One event, given that the pen of the code lags behind by the character spacing once something has been shown. -/
def Lag (p : ShowPar) (v : Bool) (base : ℚ × ℚ) (r : Render) (x : ℚ) : Prop :=
  r.line = along v base (if r.need then x - p.charspace else x)

theorem renderCid_spec {font : Font} {p : ShowPar} {ig : Bool} {rise cs ws x : ℚ} {base : ℚ × ℚ} {width : Int → ℚ} {r r' : Render} {cid : Int}
    (hr : p.rise.num? = some rise) (hcs : p.charspace = cs * p.scaling) (hws : p.wordspace = ws * p.scaling)
    (hw : ∀ c w, font.charWidth c = .ok w → width c = w) (hl : Lag p font.vertical base r x) (h : renderCid font p ig r cid = .ok r') :
    Lag p font.vertical base r' (x + (paceOf p cs ws width).step (.glyph cid)) ∧ r'.need = true ∧
      ∃ c, r'.chars = r.chars ++ [c] ∧ Painted font p ig rise base (cid, x) c := by
  simp only [renderCid, bind, Except.bind] at h
  have hline : (if r.need = true then bump font.vertical r.line p.charspace else r.line) = along font.vertical base x := by
    rw [Lag] at hl
    cases hn : r.need <;> simp only [hn] at hl <;> simp [hl, bump_along]
  rw [hline] at h
  split at h
  · cases h
  · rename_i t ht
    split at h
    · cases h
    · rename_i b hb
      cases h
      obtain ⟨⟨w, hcw, hadv⟩, hpt⟩ := charBbox_painted hr hb
      refine ⟨?_, rfl, _, rfl, ht, hpt⟩
      simp only [Lag, if_true, bump_along, hadv, Pace.step, paceOf, hw _ _ hcw, hcs, hws]
      by_cases h32 : cid = 32
      · by_cases h0 : ws * p.scaling = 0
        · rw [if_neg (by simp [h0]), if_pos h32]
          congr 1
          linarith
        · rw [if_pos ⟨h32, h0⟩, if_pos h32]
          congr 1
          ring
      · rw [if_neg (by simp [h32]), if_neg h32]
        congr 1
        ring

theorem renderCids_spec {font : Font} {p : ShowPar} {ig : Bool} {rise cs ws x : ℚ} {base : ℚ × ℚ} {width : Int → ℚ} {cids : List Int} {r r' : Render}
    (hr : p.rise.num? = some rise) (hcs : p.charspace = cs * p.scaling) (hws : p.wordspace = ws * p.scaling)
    (hw : ∀ c w, font.charWidth c = .ok w → width c = w) (hl : Lag p font.vertical base r x) (h : renderCids font p ig cids r = .ok r') :
    Lag p font.vertical base r' ((paceOf p cs ws width).final x (cids.map .glyph)) ∧ (r'.need = (r.need || !cids.isEmpty)) ∧
      ∃ l, r'.chars = r.chars ++ l ∧ List.Forall₂ (Painted font p ig rise base) ((paceOf p cs ws width).origins x (cids.map .glyph)) l := by
  induction cids generalizing r x with
  | nil => cases h; exact ⟨hl, by simp, [], by simp, .nil⟩
  | cons c cids ih =>
    simp only [renderCids] at h
    split at h
    · cases h
    · rename_i r1 h1
      obtain ⟨a1, a2, ch, a3, a4⟩ := renderCid_spec hr hcs hws hw hl h1
      obtain ⟨b1, b2, l, b3, b4⟩ := ih a1 h
      refine ⟨b1, by simp [b2, a2], ch :: l, by rw [b3, a3, List.append_assoc]; rfl, .cons a4 b4⟩

theorem origins_append (p : Pace) (x : ℚ) (es fs : List Ev) : p.origins x (es ++ fs) = p.origins x es ++ p.origins (p.final x es) fs := by
  induction es generalizing x with
  | nil => rfl
  | cons e es ih => cases e <;> simp [Pace.origins, Pace.final, ih]

theorem final_append (p : Pace) (x : ℚ) (es fs : List Ev) : p.final x (es ++ fs) = p.final (p.final x es) fs := by
  induction es generalizing x with
  | nil => rfl
  | cons e es ih => simp [Pace.final, ih]

/-- The pen at the start: an adjustment before the first glyph is taken to follow a glyph. -/
def startOf (cs x : ℚ) : List Ev → ℚ
  | .move _ :: _ => x + cs
  | _ => x

theorem renderSeq_spec {font : Font} {p : ShowPar} {ig : Bool} {rise cs ws x : ℚ} {base : ℚ × ℚ} {width : Int → ℚ} {seq : List Obj} {r r' : Render}
    (hr : p.rise.num? = some rise) (hcs : p.charspace = cs * p.scaling) (hws : p.wordspace = ws * p.scaling)
    (hdx : p.dxscale = 1 / 1000 * p.fontsize * p.scaling)
    (hw : ∀ c w, font.charWidth c = .ok w → width c = w) (hl : Lag p font.vertical base r x) (h : renderSeq font p ig seq r = .ok r') :
    ∃ es, Events font seq es ∧ Lag p font.vertical base r' ((paceOf p cs ws width).final (if r.need then x else startOf p.charspace x es) es) ∧
      (r'.need = (r.need || !es.isEmpty)) ∧
      ∃ l, r'.chars = r.chars ++ l ∧
        List.Forall₂ (Painted font p ig rise base) ((paceOf p cs ws width).origins (if r.need then x else startOf p.charspace x es) es) l := by
  induction seq generalizing r x with
  | nil =>
    cases h
    refine ⟨[], .nil, ?_, by simp, [], by simp, .nil⟩
    simpa [Pace.final, startOf] using hl
  | cons o os ih =>
    simp only [renderSeq] at h
    split at h
    · cases h
    · rename_i r1 h1
      simp only [renderObj] at h1
      split at h1
      · rename_i q hq
        cases h1
        have hl1 : Lag p font.vertical base ⟨bump font.vertical r.line (-(q * p.dxscale)), true, r.chars⟩
            ((if r.need then x else startOf p.charspace x (.move q :: ([] : List Ev))) + (paceOf p cs ws width).step (.move q)) := by
          rw [Lag] at hl ⊢
          simp only [hl, bump_along, if_true, Pace.step, paceOf, hdx, startOf]
          congr 1
          cases r.need <;> simp <;> ring
        obtain ⟨es, e1, e2, e3, l, e4, e5⟩ := ih hl1 h
        refine ⟨.move q :: es, .number hq e1, ?_, by simp [e3], l, e4, ?_⟩
        · simpa [Pace.final, startOf] using e2
        · simpa [Pace.origins, startOf] using e5
      · rename_i hq
        split at h1
        · rename_i b
          split at h1
          · cases h1
          · rename_i cids hd
            obtain ⟨b1, b2, l, b3, b4⟩ := renderCids_spec hr hcs hws hw hl h1
            obtain ⟨es, e1, e2, e3, l2, e4, e5⟩ := ih b1 h
            refine ⟨cids.map .glyph ++ es, .string hd e1, ?_⟩
            cases cids with
            | nil =>
              have b2' : r1.need = r.need := by simpa using b2
              simp only [List.map_nil, Pace.final, Pace.origins, b2', List.nil_append] at b3 b4 e2 e3 e5 ⊢
              cases b4
              exact ⟨e2, e3, l2, by rw [e4, b3]; simp, e5⟩
            | cons c cids =>
              have hn : r1.need = true := by simpa using b2
              have hst : startOf p.charspace x (List.map Ev.glyph (c :: cids) ++ es) = x := rfl
              simp only [hn, if_true] at e2 e5
              simp only [hst, ite_self]
              refine ⟨by rw [final_append]; exact e2, by simp [e3, hn], l ++ l2, by rw [e4, b3, List.append_assoc], ?_⟩
              rw [origins_append]
              exact List.rel_append b4 e5
        · cases h1

/-- The character shown for the code with the pen at `g.2`: its text and, as its box, the bounds of two opposite corners of the glyph's
rectangle on the page. -/
def Shown (font : Font) (place : ℚ × ℚ → ℚ × ℚ) (size scaling rise : ℚ) (ignoreBad : Bool) (base : ℚ × ℚ) (g : Int × ℚ) (c : Text × Bbox × ℚ) : Prop :=
  toText font ignoreBad g.1 = .ok c.1 ∧
    ∃ a b p q, GlyphRect font size scaling rise g.1 a b ∧
      p = place (a.1 + (along font.vertical base g.2).1, a.2 + (along font.vertical base g.2).2) ∧
      q = place (b.1 + (along font.vertical base g.2).1, b.2 + (along font.vertical base g.2).2) ∧
      c.2.1 = ⟨min p.1 q.1, min p.2 q.2, max p.1 q.1, max p.2 q.2⟩

/-- `TJ`: the glyphs come out in the order of the codes, none is dropped, each is painted where the pen is, and the pen moves as the
specification says. `startOf` is the pen, except that an adjustment before the first glyph also adds the character spacing; the spacing after
the last glyph is missing at the end. -/
theorem show_text_partial (R : Resolver) (s s' : St) (font : Font) (blk : TextBlock) (seq : List Obj) (base : ℚ × ℚ) (size sc cs ws rise : ℚ) (width : Int → ℚ)
    (hfont : s.text.font = some font) (hblk : s.block = some blk) (hpen : pen s = some base) (hsize : s.text.fontsize.num? = some size)
    (hsc : s.text.scaling.num? = some sc) (hcs : s.text.charspace.num? = some cs) (hws : s.text.wordspace.num? = some ws) (hrise : s.text.rise.num? = some rise)
    (hw : ∀ c w, font.charWidth c = .ok w → width c = w) (h : execs R [.arr seq, operator "TJ"] s = .ok s') :
    ∃ es b box, Events font seq es ∧ s'.block = some ⟨some box, blk.blocks ++ [b]⟩ ∧
      (let pace : Pace := ⟨size, sc / 100, cs, if font.multibyte then 0 else ws, width⟩
       let start := startOf (cs * (sc / 100)) (coord font.vertical base) es
       List.Forall₂ (Shown font (fun p => applyPt s.tmatrix (applyPt s.text.matrix p)) size (sc / 100) rise s.text.ignoreBad base) (pace.origins start es) b.chars ∧
       pen s' = some (along font.vertical base (pace.final start es - cs * (sc / 100)))) ∧
      s'.text = s.text ∧ s'.tmatrix = s.tmatrix := by
  rw [show [Obj.arr seq, operator "TJ"] = [.arr seq] ++ [operator "TJ"] from rfl, exec_op R s [.arr seq] "TJ" opShowArray (by simp [Operand]) rfl] at h
  simp only [opShowArray, hfont, hblk, elements, showText] at h
  split at h
  · cases h
  · rename_i b line hshow
    cases h
    have hlen : s.text.linematrix < s.lines.length := by
      by_contra hc
      rw [pen, List.getElem?_eq_none (by omega)] at hpen
      cases hpen
    rw [pen] at hpen
    rw [hpen] at hshow
    simp only [Option.getD_some, showSeq, showPar, num_of hsc, num_of hcs, num_of hws, num_of hsize, bind, Except.bind] at hshow
    split at hshow
    · cases hshow
    · rename_i r hr
      split at hshow
      · cases hshow
      · rename_i b' hb
        cases hshow
        have hl : Lag (⟨multMatrix s.text.matrix s.tmatrix, sc / 100, cs * (sc / 100), if font.multibyte then 0 else ws * (sc / 100), size,
            1 / 1000 * size * (sc / 100), s.text.rise⟩ : ShowPar) font.vertical base ⟨base, false, []⟩ (coord font.vertical base) := by
          simp [Lag, along_coord]
        obtain ⟨es, e1, e2, e3, l, e4, e5⟩ := renderSeq_spec (cs := cs) (ws := if font.multibyte then 0 else ws) (width := width) hrise rfl
          (by cases font.multibyte <;> simp) rfl hw hl hr
        simp only [List.nil_append] at e4
        refine ⟨es, b, _, e1, rfl, ⟨?_, ?_⟩, rfl, rfl⟩
        · have hbc : b.chars = l.map (mkChar font) := by
            rw [e4] at hb
            cases l with
            | nil => cases hb
            | cons c cs => simp only [mkCharBlock] at hb; cases hb; rfl
          rw [hbc, List.forall₂_map_right_iff]
          refine List.Forall₂.imp ?_ e5
          rintro g ⟨t, c⟩ ⟨h1, a, b, h2, h3⟩
          refine ⟨h1, a, b, _, _, h2, rfl, rfl, ?_⟩
          simp only [Bounds] at h3
          simp only [mkChar, h3, mkBbox, mult_apply, min_le_max, min_eq_left, max_eq_right]
        · have hne : es.isEmpty = false := by
            cases es with
            | nil => cases e5; rw [e4] at hb; cases hb
            | cons => rfl
          simp only [Lag, e3, hne] at e2
          simp only [pen]
          rw [List.getElem?_set_self hlen, e2]
          rfl

/-- A string shown by `Tj` is shown like the array with this one element. -/
theorem show_string (R : Resolver) (s : St) (b : Bytes) : execs R [.str b, operator "Tj"] s = execs R [.arr [.str b], operator "TJ"] s := by
  rw [show [Obj.str b, operator "Tj"] = [.str b] ++ [operator "Tj"] from rfl, exec_op R s [.str b] "Tj" opShow (by simp [Operand]) rfl,
    show [Obj.arr [.str b], operator "TJ"] = [.arr [.str b]] ++ [operator "TJ"] from rfl, exec_op R s [.arr [.str b]] "TJ" opShowArray (by simp [Operand]) rfl]
  simp only [opShow, opShowArray, elements, showText]
  cases s.text.font with
  | none => rfl
  | some f => cases s.block <;> rfl

/-- Showing text needs a font and `BT`. -/
theorem show_needs (R : Resolver) (s : St) (seq : List Obj) (h : s.text.font = none ∨ s.block = none) :
    execs R [.arr seq, operator "TJ"] s = .error .invalidOperation := by
  rw [show [Obj.arr seq, operator "TJ"] = [.arr seq] ++ [operator "TJ"] from rfl, exec_op R s [.arr seq] "TJ" opShowArray (by simp [Operand]) rfl]
  simp only [opShowArray]
  rcases h with h | h <;> rw [h]
  cases s.text.font <;> rfl

/-- A font for examples: one byte per character, which is its own text; every glyph is half as wide as the font is high. -/
def demoFont : Font where
  name := .name (asc "Demo")
  decode b := .ok (b.map fun c => c.toNat)
  toUnichr c := .ok [c.toNat]
  multibyte := false
  vertical := false
  charWidth _ := .ok (1 / 2)
  charDisp _ := .ok (some 0, 0)
  height := .ok 1
  descent := .ok 0
  width := .ok 1

/-- A state within a text object. -/
def demoState : St :=
  { csmap := predefinedSpaces, block := some {}, text := { font := some demoFont, fontsize := .int 10, charspace := .int 1 } }

/-- The boxes of the characters shown. -/
def boxes (r : Except PyErr St) : List Bbox :=
  match r with
  | .ok s => match s.block with
    | some b => b.blocks.flatMap fun c => c.chars.map fun x => x.2.1
    | none => []
  | .error _ => []

/-- No references. -/
def noRefs : Resolver := ⟨.ok, fun _ => .error .keyError⟩

example : boxes (execs noRefs [.arr [.str (asc "AB")], operator "TJ"] demoState) = [⟨0, 0, 5, 10⟩, ⟨6, 0, 11, 10⟩] := by decide +kernel

/-- `[0 (A)] TJ`: an adjustment by 0 before the first glyph moves it by the character spacing. -/
theorem adjustment_counterexample : boxes (execs noRefs [.arr [.str (asc "A")], operator "TJ"] demoState) = [⟨0, 0, 5, 10⟩] ∧
    boxes (execs noRefs [.arr [.int 0, .str (asc "A")], operator "TJ"] demoState) = [⟨1, 0, 6, 10⟩] := by
  constructor <;> decide +kernel

/-- `(A) Tj (B) Tj`: between two operators there is no character spacing. -/
theorem spacing_counterexample : boxes (execs noRefs [.str (asc "A"), operator "Tj", .str (asc "B"), operator "Tj"] demoState) = [⟨0, 0, 5, 10⟩, ⟨5, 0, 10, 10⟩] := by
  decide +kernel

example : ∃ es, Events demoFont [.str (asc "A"), .int 500, .str (asc "B")] es ∧ es = [.glyph 65, .move 500, .glyph 66] :=
  ⟨_, .string rfl (.number rfl (.string rfl .nil)), by decide +kernel⟩

end Pdf
