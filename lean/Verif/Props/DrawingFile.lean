import Verif.Props.Drawing
import Mathlib.Data.List.Nodup
/-! C107: what is drawn on the pages of a written document is delivered, from the file to the pages. -/

namespace Pdf
open Spec

/-! ### The page -/

theorem marks_run {E : Env1} {nested : List Obj → St → Gen Item} {f : Font} {ig : Bool} {images : List (List (Key × Obj) × Bytes)} (him : ∀ i ∈ images, IsImage i) (ms : List Mark) :
    ∀ {σ : Style} {e : Option PyErr} {s s' : St} {items : List Item}, (∀ m ∈ ms, Drawable f ig images.length m) → Between E f ig images σ s →
    runWith E nested (ms.flatMap Mark.ops) e s = ((items, none), s') → DrawsAll f ig images σ ms items := by
  induction ms with
  | nil => intro σ e s s' items _ _ h; simp only [List.flatMap_nil, runWith] at h; cases h; exact .nil
  | cons m ms ih =>
    intro σ e s s' items hm hs h
    rw [List.flatMap_cons] at h
    obtain ⟨σ', s1, i1, i2, h1, h2, h3, rfl⟩ := mark_run him m (hm m (by simp)) hs h
    exact .cons h1 (ih (fun x hx => hm x (by simp [hx])) h3 h2)

theorem initFonts_csmap {E : Env1} {l : List (Key × Obj)} : ∀ {s s' : St}, initFonts E l s = .ok s' → s'.csmap = s.csmap := by
  intro s s' h
  obtain ⟨m, rfl, _⟩ := initFonts_frame h
  rfl

theorem initEntries_csmap {E : Env1} {l : List (Key × Obj)} (hl : nm "ColorSpace" ∉ l.map Prod.fst) : ∀ {s s' : St}, initEntries E l s = .ok s' → s'.csmap = s.csmap := by
  induction l with
  | nil => intro s s' h; simp only [initEntries] at h; cases h; rfl
  | cons e l ih =>
    obtain ⟨k, v⟩ := e
    intro s s' h
    simp only [List.map_cons, List.mem_cons, not_or] at hl
    simp only [initEntries] at h
    split at h
    · cases h
    rename_i s1 h1
    rw [ih hl.2 h]
    unfold initEntry at h1
    split at h1
    · split at h1
      · cases h1
      · exact initFonts_csmap h1
    rw [if_neg (Ne.symm hl.1)] at h1
    split at h1
    · split at h1
      · cases h1
      · cases h1; rfl
    split at h1
    · split at h1
      · cases h1
      · cases h1; rfl
    · cases h1; rfl

/-- At the beginning of a page. -/
theorem between_start {E : Env1} {f : Font} {ig : Bool} {images : List (List (Key × Obj) × Bytes)} {res : List (Key × Obj)} {s : St} (hR : E.R.resolve1 (.dict res) = .ok (.dict res))
    (hl : nm "ColorSpace" ∉ res.map Prod.fst) (hf : FontNamed E (.dict res) (asc "F1") f)
    (him : ∀ i d raw, images[i]? = some (d, raw) → XObjectNamed E.R (.dict res) (imageName i) (.stream d raw)) (h : prepState E Mat.identity (.dict res) ig = .ok s) :
    Between E f ig images Style.start s := by
  have ha := agrees_start h
  have hfo := ha.fonts _ _ hf
  have hx : ∀ i d raw, images[i]? = some (d, raw) → ∃ r, dictGet s.xobjmap (.name (imageName i)) = some r ∧ E.R.resolve1 r = .ok (.stream d raw) :=
    fun i d raw hi => ha.xobjs _ _ (him i d raw hi)
  clear ha
  simp only [prepState, initResources, Resolver.dictValue, hR] at h
  have hc := initEntries_csmap hl h
  obtain ⟨cm, fm, xm, rfl, _⟩ := initEntries_frame h
  refine ⟨rfl, rfl, rfl, rfl, rfl, rfl, rfl, rfl, ?_, rfl, rfl, rfl, rfl, rfl, hfo, hx⟩
  rw [hc]
  show dictGet predefinedSpaces (nm "DeviceRGB") = some (some ⟨asc "DeviceRGB", .int 3⟩)
  decide

/-! ### The content -/

theorem dec_printable (d : Dec) : Printable d.tok := by
  unfold Dec.tok
  split <;> trivial

theorem markToks_printable (m : Mark) : ∀ t ∈ m.toks, Printable t := by
  have h2 : ∀ n ∈ [asc "rg", asc "RG", asc "w", asc "re", asc "f", asc "m", asc "l", asc "S", asc "q", asc "cm", asc "Do", asc "Q", asc "BT", asc "Tf", asc "Td", asc "Tj", asc "ET"], Printable (.kw n) := by
    intro n hn
    simp only [List.mem_cons, List.not_mem_nil, or_false] at hn
    rcases hn with rfl | rfl | rfl | rfl | rfl | rfl | rfl | rfl | rfl | rfl | rfl | rfl | rfl | rfl | rfl | rfl | rfl <;>
      exact Or.inr ⟨_, _, rfl, by decide, by decide, by decide, by decide⟩
  cases m with
  | fill r g b =>
    intro t ht
    simp only [Mark.toks, List.mem_cons, List.not_mem_nil, or_false] at ht
    rcases ht with rfl | rfl | rfl | rfl <;> first | exact dec_printable _ | exact h2 _ (by simp)
  | stroke r g b =>
    intro t ht
    simp only [Mark.toks, List.mem_cons, List.not_mem_nil, or_false] at ht
    rcases ht with rfl | rfl | rfl | rfl <;> first | exact dec_printable _ | exact h2 _ (by simp)
  | width w =>
    intro t ht
    simp only [Mark.toks, List.mem_cons, List.not_mem_nil, or_false] at ht
    rcases ht with rfl | rfl <;> first | exact dec_printable _ | exact h2 _ (by simp)
  | rect x y w h =>
    intro t ht
    simp only [Mark.toks, List.mem_cons, List.not_mem_nil, or_false] at ht
    rcases ht with rfl | rfl | rfl | rfl | rfl | rfl <;> first | exact dec_printable _ | exact h2 _ (by simp)
  | path p q more =>
    intro t ht
    simp only [Mark.toks, List.mem_append, List.mem_flatMap, List.mem_cons, List.not_mem_nil, or_false] at ht
    rcases ht with ((rfl | rfl | rfl) | ⟨v, _, (rfl | rfl | rfl)⟩) | rfl <;> first | exact dec_printable _ | exact h2 _ (by simp)
  | image i a b c d e f =>
    intro t ht
    simp only [Mark.toks, List.mem_cons, List.not_mem_nil, or_false] at ht
    rcases ht with rfl | rfl | rfl | rfl | rfl | rfl | rfl | rfl | rfl | rfl | rfl <;> first | exact dec_printable _ | exact h2 _ (by simp) | trivial
  | text size x y s =>
    intro t ht
    simp only [Mark.toks, List.mem_cons, List.not_mem_nil, or_false] at ht
    rcases ht with rfl | rfl | rfl | rfl | rfl | rfl | rfl | rfl | rfl | rfl <;> first | exact dec_printable _ | exact h2 _ (by simp) | trivial

theorem writes_dec (d : Dec) {ts : List Tok} {os : List Obj} (h : WritesSeq contentDialect ts os) : WritesSeq contentDialect (d.tok :: ts) (d.obj :: os) :=
  .cons (d.writes _) h

theorem writes_op (n : String) (hn : asc n ∉ Spec.brackets ∧ asc n ∉ [[66, 73], [73, 68], [69, 73]]) {ts : List Tok} {os : List Obj} (h : WritesSeq contentDialect ts os) :
    WritesSeq contentDialect (.kw (asc n) :: ts) (operator n :: os) := .cons (.kw _ (plain_op hn)) h

theorem mark_written (m : Mark) : WritesSeq contentDialect m.toks m.ops := by
  cases m with
  | fill r g b => exact writes_dec _ (writes_dec _ (writes_dec _ (writes_op "rg" (by decide) .nil)))
  | stroke r g b => exact writes_dec _ (writes_dec _ (writes_dec _ (writes_op "RG" (by decide) .nil)))
  | width w => exact writes_dec _ (writes_op "w" (by decide) .nil)
  | rect x y w h => exact writes_dec _ (writes_dec _ (writes_dec _ (writes_dec _ (writes_op "re" (by decide) (writes_op "f" (by decide) .nil)))))
  | path p q more =>
    refine writesSeq_and (writesSeq_and ?_ ?_) ?_
    · exact writes_dec _ (writes_dec _ (writes_op "m" (by decide) .nil))
    · generalize q :: more = l
      induction l with
      | nil => exact .nil
      | cons p l ih => exact writesSeq_and (writes_dec _ (writes_dec _ (writes_op "l" (by decide) .nil))) ih
    · exact writes_op "S" (by decide) .nil
  | image i a b c d e f =>
    exact writes_op "q" (by decide) (writes_dec _ (writes_dec _ (writes_dec _ (writes_dec _ (writes_dec _ (writes_dec _ (writes_op "cm" (by decide)
      (.cons (.name _) (writes_op "Do" (by decide) (writes_op "Q" (by decide) .nil))))))))))
  | text size x y s =>
    exact writes_op "BT" (by decide) (.cons (.name _) (writes_dec _ (writes_op "Tf" (by decide) (writes_dec _ (writes_dec _ (writes_op "Td" (by decide)
      (.cons (.str _) (writes_op "Tj" (by decide) (writes_op "ET" (by decide) .nil)))))))))

/-- The objects of the content of a page. -/
def Spec.Leaf.ops (p : Leaf) : List Obj := p.marks.flatMap Mark.ops

theorem leaf_content (p : Leaf) : Content (printToks p.toks) p.ops := by
  have hp : ∀ t ∈ p.toks, Printable t := by
    intro t ht
    obtain ⟨m, _, h⟩ := List.mem_flatMap.1 ht
    exact markToks_printable m t h
  have hw : WritesSeq contentDialect p.toks p.ops := by
    unfold Leaf.toks Leaf.ops
    generalize p.marks = l
    induction l with
    | nil => exact .nil
    | cons m l ih => exact writesSeq_and (mark_written m) ih
  obtain ⟨pts, h1, h2⟩ := text_print p.toks hp 0 []
  have := Content.objects h2 (h1 ▸ hw) .nil
  simpa using this

/-! The letter `t` is not in it. -/

theorem digit_notT : ∀ c : UInt8, Digit c → c ≠ 116 := by
  refine forall_byte ?_
  decide +kernel

theorem octal_notT (s : Bytes) : 116 ∉ octalBody s := by
  induction s with
  | nil => simp [octalBody]
  | cons c s ih =>
    have h : ∀ c : UInt8, 116 ∉ [92, UInt8.ofNat (48 + c.toNat / 64), UInt8.ofNat (48 + c.toNat % 64 / 8), UInt8.ofNat (48 + c.toNat % 8)] := by
      refine forall_byte ?_
      decide +kernel
    intro hm
    rcases List.mem_append.1 (show 116 ∈ [92, UInt8.ofNat (48 + c.toNat / 64), UInt8.ofNat (48 + c.toNat % 64 / 8), UInt8.ofNat (48 + c.toNat % 8)] ++ octalBody s from hm) with hm | hm
    · exact h c hm
    · exact ih hm

theorem nameBody_notT (s : Bytes) (h : 116 ∉ s) : 116 ∉ nameBody s := by
  induction s with
  | nil => simp [nameBody]
  | cons c s ih =>
    have hh : ∀ c : UInt8, 116 ∉ [35, hexChr (c.toNat / 16), hexChr (c.toNat % 16)] := by
      refine forall_byte ?_
      decide +kernel
    simp only [List.mem_cons, not_or] at h
    rw [nameBody]
    split
    · simp only [List.mem_cons, not_or]
      exact ⟨h.1, ih h.2⟩
    · intro hm
      rcases List.mem_append.1 (show 116 ∈ [35, hexChr (c.toNat / 16), hexChr (c.toNat % 16)] ++ nameBody s from hm) with hm | hm
      · exact hh c hm
      · exact ih h.2 hm

theorem dec_notT (d : Dec) : 116 ∉ printTok d.tok := by
  have hs : ∀ n : Int, 116 ∉ signOf n := by intro n; unfold signOf; split <;> simp
  unfold Dec.tok
  split
  · simp only [printTok, List.mem_append, not_or]
    exact ⟨hs _, fun h => digit_notT _ ((natDigits_spec _).2.1 _ h) rfl⟩
  · simp only [printTok, List.mem_append, List.mem_cons, not_or]
    exact ⟨⟨hs _, fun h => digit_notT _ ((padded_spec _ _).2.1 _ (List.mem_of_mem_take h)) rfl⟩, by decide,
      fun h => digit_notT _ ((padded_spec _ _).2.1 _ (List.mem_of_mem_drop h)) rfl⟩

theorem imageName_notT (i : Nat) : 116 ∉ imageName i := by
  unfold imageName
  rw [List.mem_append, not_or]
  exact ⟨by decide, fun h => digit_notT _ ((natDigits_spec _).2.1 _ h) rfl⟩

theorem printToks_mem {c : UInt8} {ts : List Tok} (hc : c ≠ 32) (h : ∀ t ∈ ts, c ∉ printTok t) : c ∉ printToks ts := by
  induction ts with
  | nil => simp [printToks]
  | cons t ts ih =>
    simp only [printToks, List.mem_append, List.mem_cons, not_or]
    exact ⟨h t (by simp), hc, ih fun x hx => h x (by simp [hx])⟩

theorem markToks_notT (m : Mark) : ∀ t ∈ m.toks, 116 ∉ printTok t := by
  have h2 : ∀ n ∈ [asc "rg", asc "RG", asc "w", asc "re", asc "f", asc "m", asc "l", asc "S", asc "q", asc "cm", asc "Do", asc "Q", asc "BT", asc "Tf", asc "Td", asc "Tj", asc "ET"], 116 ∉ printTok (.kw n) := by
    decide
  cases m with
  | fill r g b =>
    intro t ht
    simp only [Mark.toks, List.mem_cons, List.not_mem_nil, or_false] at ht
    rcases ht with rfl | rfl | rfl | rfl <;> first | exact dec_notT _ | exact h2 _ (by simp)
  | stroke r g b =>
    intro t ht
    simp only [Mark.toks, List.mem_cons, List.not_mem_nil, or_false] at ht
    rcases ht with rfl | rfl | rfl | rfl <;> first | exact dec_notT _ | exact h2 _ (by simp)
  | width w =>
    intro t ht
    simp only [Mark.toks, List.mem_cons, List.not_mem_nil, or_false] at ht
    rcases ht with rfl | rfl <;> first | exact dec_notT _ | exact h2 _ (by simp)
  | rect x y w h =>
    intro t ht
    simp only [Mark.toks, List.mem_cons, List.not_mem_nil, or_false] at ht
    rcases ht with rfl | rfl | rfl | rfl | rfl | rfl <;> first | exact dec_notT _ | exact h2 _ (by simp)
  | path p q more =>
    intro t ht
    simp only [Mark.toks, List.mem_append, List.mem_flatMap, List.mem_cons, List.not_mem_nil, or_false] at ht
    rcases ht with ((rfl | rfl | rfl) | ⟨v, _, (rfl | rfl | rfl)⟩) | rfl <;> first | exact dec_notT _ | exact h2 _ (by simp)
  | image i a b c d e f =>
    have hn : 116 ∉ printTok (.lit (imageName i)) := by
      simp only [printTok, List.mem_cons, not_or]
      exact ⟨by decide, nameBody_notT _ (imageName_notT i)⟩
    intro t ht
    simp only [Mark.toks, List.mem_cons, List.not_mem_nil, or_false] at ht
    rcases ht with rfl | rfl | rfl | rfl | rfl | rfl | rfl | rfl | rfl | rfl | rfl <;> first | exact hn | exact dec_notT _ | exact h2 _ (by simp)
  | text size x y s =>
    have hn : 116 ∉ printTok (.lit (asc "F1")) := by decide +kernel
    have hs : 116 ∉ printTok (.str s) := by
      simp only [printTok, List.mem_append, List.mem_cons, List.not_mem_nil, or_false, not_or]
      exact ⟨⟨by decide, octal_notT s⟩, by decide⟩
    intro t ht
    simp only [Mark.toks, List.mem_cons, List.not_mem_nil, or_false] at ht
    rcases ht with rfl | rfl | rfl | rfl | rfl | rfl | rfl | rfl | rfl | rfl <;> first | exact hn | exact hs | exact dec_notT _ | exact h2 _ (by simp)

theorem leaf_notT (p : Leaf) : 116 ∉ printToks p.toks := by
  refine printToks_mem (by decide) fun t ht => ?_
  obtain ⟨m, _, h⟩ := List.mem_flatMap.1 ht
  exact markToks_notT m t h

/-! ### The resources -/

theorem natDigits_inj {i j : Nat} (h : natDigits i = natDigits j) : i = j := by
  rw [← (natDigits_spec i).2.2, ← (natDigits_spec j).2.2, h]

theorem imageName_inj {i j : Nat} (h : imageName i = imageName j) : i = j := natDigits_inj (List.append_cancel_left h)

theorem imageRefs_nodup (n images : Nat) : ((imageRefs n images).map Prod.fst).Nodup := by
  unfold imageRefs
  rw [List.map_map]
  refine List.Nodup.map ?_ List.nodup_range
  intro i j h
  exact imageName_inj (Key.name.inj h)

theorem dictGet_nodup {κ α : Type} [DecidableEq κ] {l : List (κ × α)} (h : (l.map Prod.fst).Nodup) {k : κ} {v : α} (hm : (k, v) ∈ l) : dictGet l k = some v := by
  induction l with
  | nil => cases hm
  | cons e l ih =>
    obtain ⟨k', v'⟩ := e
    simp only [List.map_cons, List.nodup_cons] at h
    rw [dictGet]
    rcases List.mem_cons.1 hm with hm | hm
    · cases hm; rw [if_pos rfl]
    · rw [if_neg, ih h.2 hm]
      rintro rfl
      exact h.1 (List.mem_map.2 ⟨_, hm, rfl⟩)

theorem imageRefs_get {n images i : Nat} (h : i < images) : dictGet (imageRefs n images) (.name (imageName i)) = some (.ref ((n + 5 + i : Nat) : Int) 0) :=
  dictGet_nodup (imageRefs_nodup n images) (List.mem_map.2 ⟨i, List.mem_range.2 h, rfl⟩)

/-- What the page is in this document: the dictionaries, the resources, the font, the images and the content. -/
def DrawnOn (S : Setup) (ig : Bool) (f : Font) (images : List (List (Key × Obj) × Bytes)) (R : Resolver) (ds : List Dict) (p : Leaf) : Prop :=
  ∃ (font : List (Key × Obj)) (n m k kf : Nat), ds = [p.dict k, pagesDict m, catalogDict] ∧ R.resolve1 (.ref 3 0) = .ok (.dict (drawRes n images.length)) ∧
    R.resolve1 (.ref ((n + 4 : Nat) : Int) 0) = .ok (.dict font) ∧ (∀ i d raw, images[i]? = some (d, raw) → R.resolve1 (.ref ((n + 5 + i : Nat) : Int) 0) = .ok (.stream d raw)) ∧
    R.resolve1 (.ref ((2 * k + 5 : Nat) : Int) 0) = .ok p.content ∧ buildFont (S.fontEnv R) kf font = .ok f ∧ ∀ m ∈ p.marks, Drawable f ig images.length m

/-- The fonts and the content of the page. -/
def leafEnv (S : Setup) (R : Resolver) (k : Nat) (p : Leaf) : Env1 where
  R := R
  getFont _ spec := buildFont (S.fontEnv R) k spec
  content streams := if streams = [p.content] then (p.ops, none) else ([], some .psEOF)

theorem leafEnv_serves (S : Setup) (R : Resolver) (hR : R.Direct) (k : Nat) (p : Leaf) : Serves S R (leafEnv S R k p) := by
  refine ⟨rfl, fun _ _ _ h => ⟨k, h⟩, fun streams os h => ?_⟩
  simp only [leafEnv] at h
  split at h
  · rename_i hs
    cases h
    subst hs
    refine ⟨[printToks p.toks], by simp, .cons ⟨_, _, hR _ (by simp [Leaf.content]), content_decoded _ _ _ _⟩ .nil, by simp [Uncut], ?_⟩
    rw [List.flatten_singleton]
    exact leaf_content p
  · cases h

theorem draw_font {E : Env1} (hR : E.R.Direct) {n images : Nat} {font : List (Key × Obj)} {f : Font} (h1 : E.R.resolve1 (.ref ((n + 4 : Nat) : Int) 0) = .ok (.dict font))
    (h2 : E.getFont (some ((n + 4 : Nat) : Int)) font = .ok f) : FontNamed E (.dict (drawRes n images)) (asc "F1") f := by
  refine ⟨.ref ((n + 4 : Nat) : Int) 0, font, ⟨drawRes n images, [(nm "F1", .ref ((n + 4 : Nat) : Int) 0)], hR _ (by simp), ?_, .given rfl (hR _ (by simp)), ?_, rfl⟩, h1, h2⟩
  · show [nm "Font", nm "XObject"].Nodup
    decide
  · show [nm "F1"].Nodup
    decide

theorem draw_image {R : Resolver} (hR : R.Direct) {n images i : Nat} (hi : i < images) {d : List (Key × Obj)} {raw : Bytes}
    (h : R.resolve1 (.ref ((n + 5 + i : Nat) : Int) 0) = .ok (.stream d raw)) : XObjectNamed R (.dict (drawRes n images)) (imageName i) (.stream d raw) := by
  refine ⟨_, ⟨drawRes n images, imageRefs n images, hR _ (by simp), ?_, .given rfl (hR _ (by simp)), imageRefs_nodup _ _, imageRefs_get hi⟩, h⟩
  show [nm "Font", nm "XObject"].Nodup
  decide

theorem draw_usable {E : Env1} (hR : E.R.Direct) {n images : Nat} {font : List (Key × Obj)} {f : Font} (h1 : E.R.resolve1 (.ref ((n + 4 : Nat) : Int) 0) = .ok (.dict font))
    (h2 : E.getFont (some ((n + 4 : Nat) : Int)) font = .ok f) : UsableResources E (drawRes n images) := by
  refine ⟨?_, ?_, ?_, ?_, ?_⟩
  · show [nm "Font", nm "XObject"].Nodup
    decide
  · intro o h
    have : dictGet (drawRes n images) (nm "Font") = some (.dict [(nm "F1", .ref ((n + 4 : Nat) : Int) 0)]) := rfl
    rw [this] at h
    cases h
    refine ⟨_, hR _ (by simp), ?_⟩
    simp only [List.mem_singleton, forall_eq]
    exact ⟨font, f, h1, h2⟩
  · intro o h
    have : dictGet (drawRes n images) (nm "ColorSpace") = none := rfl
    rw [this] at h
    cases h
  · intro o h
    have : dictGet (drawRes n images) (nm "ProcSet") = none := rfl
    rw [this] at h
    cases h
  · intro o h
    have : dictGet (drawRes n images) (nm "XObject") = some (.dict (imageRefs n images)) := rfl
    rw [this] at h
    cases h
    exact ⟨_, hR _ (by simp)⟩

theorem dec_number (d : Dec) : IsNumber d.obj := ⟨_, d.num⟩

theorem lines_wf {E : Env1} {ig : Bool} {res : List (Key × Obj)} {pen : Pen} {os : List Obj} {t : PyStr} (l : List Pt) (h : WellFormed E ig res pen os t) :
    WellFormed E ig res pen (l.flatMap (fun p => [p.1.obj, p.2.obj, operator "l"]) ++ os) t := by
  induction l with
  | nil => exact h
  | cons p l ih =>
    rw [List.flatMap_cons, List.append_assoc]
    exact .numbers (n := "l") (k := 2) [p.1.obj, p.2.obj] (by decide) rfl (by simpa using ⟨dec_number _, dec_number _⟩) ih

theorem mark_wf {E : Env1} {ig : Bool} {res : List (Key × Obj)} {f : Font} {images : List (List (Key × Obj) × Bytes)} (him : ∀ i ∈ images, IsImage i) (hf : FontNamed E (.dict res) (asc "F1") f)
    (hx : ∀ i d raw, images[i]? = some (d, raw) → XObjectNamed E.R (.dict res) (imageName i) (.stream d raw)) (m : Mark) (hm : Drawable f ig images.length m) (os : List Obj)
    (h : ∀ font, ∃ t, WellFormed E ig res ⟨font, [], none⟩ os t) : ∀ font, ∃ t, WellFormed E ig res ⟨font, [], none⟩ (m.ops ++ os) t := by
  intro font
  cases m with
  | fill r g b =>
    obtain ⟨t, ht⟩ := h font
    exact ⟨t, .numbers (n := "rg") (k := 3) [r.obj, g.obj, b.obj] (by decide) rfl (by simpa using ⟨dec_number _, dec_number _, dec_number _⟩) ht⟩
  | stroke r g b =>
    obtain ⟨t, ht⟩ := h font
    exact ⟨t, .numbers (n := "RG") (k := 3) [r.obj, g.obj, b.obj] (by decide) rfl (by simpa using ⟨dec_number _, dec_number _, dec_number _⟩) ht⟩
  | width w =>
    obtain ⟨t, ht⟩ := h font
    exact ⟨t, .numbers (n := "w") (k := 1) [w.obj] (by decide) rfl (by simpa using dec_number _) ht⟩
  | rect x y w h' =>
    obtain ⟨t, ht⟩ := h font
    exact ⟨t, .numbers (n := "re") (k := 4) [x.obj, y.obj, w.obj, h'.obj] (by decide) rfl (by simpa using ⟨dec_number _, dec_number _, dec_number _, dec_number _⟩)
      (.bare (n := "f") (by decide) ht)⟩
  | path p q more =>
    obtain ⟨t, ht⟩ := h font
    refine ⟨t, ?_⟩
    have h0 : (Mark.path p q more).ops ++ os = [p.1.obj, p.2.obj] ++ operator "m" :: ((q :: more).flatMap (fun p => [p.1.obj, p.2.obj, operator "l"]) ++ (operator "S" :: os)) := by
      simp [Mark.ops]
    rw [h0]
    exact .numbers (n := "m") (k := 2) _ (by decide) rfl (by simpa using ⟨dec_number _, dec_number _⟩) (lines_wf _ (.bare (n := "S") (by decide) ht))
  | image i a b c d e f' =>
    obtain ⟨t, ht⟩ := h font
    obtain ⟨⟨dd, raw⟩, hi⟩ : ∃ x, images[i]? = some x := ⟨_, List.getElem?_eq_getElem hm⟩
    obtain ⟨_, m1, _⟩ := him _ (List.mem_of_getElem? hi)
    refine ⟨t, .save (.numbers (n := "cm") (k := 6) [a.obj, b.obj, c.obj, d.obj, e.obj, f'.obj] (by decide) rfl
      (by simpa using ⟨dec_number _, dec_number _, dec_number _, dec_number _, dec_number _, dec_number _⟩) (.xobject (hx i dd raw hi) ?_ (.restore ht)))⟩
    rintro ⟨h, _⟩
    rw [show dictGet dd (nm "Subtype") = some (.name (asc "Image")) from m1] at h
    injection h with h
    injection h with h
    exact absurd h (by decide)
  | text size x y s =>
    obtain ⟨t, ht⟩ := h (some f)
    obtain ⟨⟨v, hv⟩, hc⟩ := hm
    exact ⟨([] ++ v) ++ t, .beginText (.selectFont (dec_number size) hf (.numbers (n := "Td") (k := 2) [x.obj, y.obj] (by decide) rfl (by simpa using ⟨dec_number _, dec_number _⟩)
      (.showString hv hc (.endText ht))))⟩

theorem marks_wf {E : Env1} {ig : Bool} {res : List (Key × Obj)} {f : Font} {images : List (List (Key × Obj) × Bytes)} (him : ∀ i ∈ images, IsImage i) (hf : FontNamed E (.dict res) (asc "F1") f)
    (hx : ∀ i d raw, images[i]? = some (d, raw) → XObjectNamed E.R (.dict res) (imageName i) (.stream d raw)) (ms : List Mark) (hm : ∀ m ∈ ms, Drawable f ig images.length m) :
    ∀ font, ∃ t, WellFormed E ig res ⟨font, [], none⟩ (ms.flatMap Mark.ops) t := by
  induction ms with
  | nil => intro font; exact ⟨[], .done⟩
  | cons m ms ih =>
    rw [List.flatMap_cons]
    exact mark_wf him hf hx m (hm m (by simp)) _ (ih fun x hx => hm x (by simp [hx]))

/-- A page with marks is a page with some text. -/
theorem drawnOn_text {S : Setup} {ig : Bool} {f : Font} {images : List (List (Key × Obj) × Bytes)} (him : ∀ i ∈ images, IsImage i) {objs : List (Int × Obj)} {ds : List Dict} {p : Leaf}
    (h : DrawnOn S ig f images (fileResolver objs) ds p) : ∃ t, PageText S (fileResolver objs) ig ds t := by
  obtain ⟨font, n, m, k, kf, rfl, h3, h4, h5, h6, h7, h8⟩ := h
  have hR : (fileResolver objs).Direct := fileResolver_direct objs
  have hz : ∀ i g, i ≠ 0 → ∃ v, (fileResolver objs).resolve1 (.ref i g) = .ok v := fun i g hi => ⟨_, if_neg hi⟩
  generalize fileResolver objs = R at *
  obtain ⟨t, ht⟩ := marks_wf (E := leafEnv S R kf p) him (draw_font hR h4 h7) (fun i d raw hi => draw_image hR (List.getElem?_eq_some_iff.1 hi).1 (h5 i d raw hi)) p.marks h8 none
  refine ⟨t, ?_, ?_, ?_⟩
  · intro key o ho
    obtain ⟨d, h1, h2⟩ := attr_mem ho
    have key : ∀ i g, o = .ref i g → i ≠ 0 := by
      rintro i g rfl
      simp only [List.mem_cons, List.not_mem_nil, or_false] at h1
      rcases h1 with rfl | rfl | rfl
      · simp only [Leaf.dict, List.mem_cons, List.not_mem_nil, or_false, Prod.mk.injEq, Obj.ref.injEq, reduceCtorEq, and_false, false_or] at h2
        rcases h2 with ⟨_, h, _⟩ | ⟨_, h, _⟩ | ⟨_, h, _⟩ <;> omega
      · simp [pagesDict] at h2
      · simp only [catalogDict, List.mem_cons, List.not_mem_nil, or_false, Prod.mk.injEq, Obj.ref.injEq, reduceCtorEq, and_false, false_or] at h2
        omega
    cases o with
    | ref i g => exact hz i g (key i g rfl)
    | _ => exact ⟨_, hR _ (by simp)⟩
  · exact ⟨_, _, _, _, _, rfl, hR _ (by simp), int_number _, int_number _, dec_number _, dec_number _⟩
  · refine ⟨leafEnv S R kf p, drawRes n images.length, .ref ((2 * k + 5 : Nat) : Int) 0, p.content, leafEnv_serves S R hR kf p, h3, draw_usable hR h4 h7, rfl, h6, ?_, ?_⟩
    · simp [leafEnv, streamsOf, Leaf.content]
    · have hs : ((leafEnv S R kf p).content (streamsOf p.content)).1 = p.ops := by simp [leafEnv, streamsOf, Leaf.content]
      rw [hs]
      exact ht

/-- A page with marks is delivered with its size and its marks. -/
theorem drawn_deliver {S : Setup} (hb : 0 < S.bufsiz) {ig : Bool} {f : Font} {images : List (List (Key × Obj) × Bytes)} (him : ∀ i ∈ images, IsImage i) {objs : List (Int × Obj)} {p : Page}
    {leaf : Int × List Dict} {x : Leaf} (hp : PageOf (fileResolver objs) p leaf) (hx : DrawnOn S ig f images (fileResolver objs) leaf.2 x) :
    ∃ out, (Evt fun n => Delivers S (fileResolver objs) ig n p out) ∧ LeafOut f ig images x out := by
  obtain ⟨font, n, m, k, kf, hds, h3, h4, h5, h6, h7, h8⟩ := hx
  have hR : (fileResolver objs).Direct := fileResolver_direct objs
  generalize fileResolver objs = R at *
  have hE := leafEnv_serves S R hR kf x
  have hrot : p.rotate = 0 := by
    obtain ⟨q, q1, q2⟩ := hp.rotation
    obtain ⟨r1, r2⟩ := hp.rotate
    rw [hds] at q1
    have h1 : (pageAttr [x.dict k, pagesDict m, catalogDict] (.name (asc "Rotate"))).getD (.int 0) = .int 0 := rfl
    rw [h1] at q1
    simp only [Resolver.intValue, hR (.int 0) (by simp)] at q1
    cases q1
    omega
  have hgeo : pageGeometry p.mediabox p.rotate = .ok (Mat.identity, x.width.val, x.height.val) := by
    obtain ⟨o', h10, h11⟩ := hp.media
    rw [hds] at h10
    cases h10
    rw [hR _ (by simp)] at h11
    rw [← Except.ok.inj h11, hrot]
    have i0 : Obj.num (.int 0) = .ok 0 := rfl
    simp only [pageGeometry, i0, Dec.num_ok, bind, Except.bind]
    simp [initialMatrix, Mat.identity]
  have hres : p.resources = .dict (drawRes n images.length) := by
    have := hp.resources
    rw [hds] at this
    have h1 : (pageAttr [x.dict k, pagesDict m, catalogDict] (.name (asc "Resources"))).getD (.dict []) = .ref 3 0 := rfl
    rw [h1, h3] at this
    exact (Except.ok.inj this).symm
  have hcont : p.contents = [x.content] := by
    have := hp.contents
    rw [hds] at this
    have h1 : (([x.dict k, pagesDict m, catalogDict] : List Dict).head?.bind fun d => dictGet d (.name (asc "Contents"))) = some (.ref ((2 * k + 5 : Nat) : Int) 0) := rfl
    rw [h1] at this
    obtain ⟨c2, h10, h11⟩ := this
    rw [h6] at h10
    cases h10
    exact h11
  have hcn : ((leafEnv S R kf x).content [x.content]) = (x.ops, none) := by simp [leafEnv]
  have hf := draw_font (E := leafEnv S R kf x) (images := images.length) hR h4 h7
  have hxo : ∀ i d raw, images[i]? = some (d, raw) → XObjectNamed (leafEnv S R kf x).R (.dict (drawRes n images.length)) (imageName i) (.stream d raw) :=
    fun i d raw hi => draw_image hR (List.getElem?_eq_some_iff.1 hi).1 (h5 i d raw hi)
  obtain ⟨t, hwf⟩ := marks_wf (E := leafEnv S R kf x) him hf hxo x.marks h8 none
  obtain ⟨N, hN⟩ := well_formed_page (leafEnv S R kf x) (fun d => hR _ (by simp)) _ (draw_usable hR h4 h7) ig [x.content]
    (by rw [hcn]) t (by rw [hcn]; exact hwf)
  obtain ⟨s, items, s', g1, g2, _⟩ := hN (N + 1) (by omega) Mat.identity
  have g2' := g2
  simp only [run, hcn] at g2'
  have hstart := between_start (f := f) (images := images) (hR _ (by simp)) (by show nm "ColorSpace" ∉ [nm "Font", nm "XObject"]; decide) hf hxo g1
  refine ⟨(x.width.val, x.height.val, items), ?_, items, rfl, marks_run him x.marks h8 hstart g2'⟩
  refine ((prepState_limit hE g1).and (run_limit hb hE (N + 1) id (Evt.ge (N + 1)) _ _ _ _ g2)).mono fun n hn => ?_
  exact ⟨Mat.identity, s, s', hgeo, hres ▸ hn.1, hcont ▸ hn.2⟩

/-! ### The file -/

theorem leafObjs_length (j : Nat) (pages : List Leaf) : (leafObjs j pages).length = 2 * pages.length := by
  induction pages generalizing j with
  | nil => rfl
  | cons p ps ih => simp only [leafObjs, List.length_cons, ih]; omega

theorem leafObjs_get (j : Nat) (pages : List Leaf) (k : Nat) (p : Leaf) (h : pages[k]? = some p) :
    (leafObjs j pages)[2 * k]? = some (.dict (p.dict (j + k))) ∧ (leafObjs j pages)[2 * k + 1]? = some p.content := by
  induction pages generalizing j k with
  | nil => simp at h
  | cons q ps ih =>
    cases k with
    | zero => simp at h; subst h; exact ⟨rfl, rfl⟩
    | succ k =>
      obtain ⟨h1, h2⟩ := ih (j + 1) k (by simpa using h)
      rw [show j + 1 + k = j + (k + 1) by omega] at h1
      exact ⟨h1, h2⟩

/-- The objects `T` are those of the document. -/
structure DrawTable (T : List (Int × Obj)) (font : List (Key × Obj)) (images : List (List (Key × Obj) × Bytes)) (pages : List Leaf) : Prop where
  catalog : dictGet T 1 = some (.dict catalogDict)
  tree : dictGet T 2 = some (.dict (pagesDict pages.length))
  res : dictGet T 3 = some (.dict (drawRes (2 * pages.length) images.length))
  leaves : ∀ k p, pages[k]? = some p → dictGet T ((2 * k + 4 : Nat) : Int) = some (.dict (p.dict k)) ∧ dictGet T ((2 * k + 5 : Nat) : Int) = some p.content
  face : dictGet T ((2 * pages.length + 4 : Nat) : Int) = some (.dict font)
  pictures : ∀ i d raw, images[i]? = some (d, raw) → dictGet T ((2 * pages.length + 5 + i : Nat) : Int) = some (.stream d raw)

theorem drawObjs_table (font : List (Key × Obj)) (images : List (List (Key × Obj) × Bytes)) (pages : List Leaf) : DrawTable (numbered 1 (drawObjs font images pages)) font images pages := by
  have hl := leafObjs_length 0 pages
  refine ⟨numbered_get 1 _ 0, numbered_get 1 _ 1, numbered_get 1 _ 2, fun k p h => ?_, ?_, fun i d raw hi => ?_⟩
  · obtain ⟨h1, h2⟩ := leafObjs_get 0 pages k p h
    have hk := (List.getElem?_eq_some_iff.1 h).1
    rw [Nat.zero_add] at h1
    rw [show 2 * k + 4 = 1 + (2 * k + 3) by omega, show 2 * k + 5 = 1 + (2 * k + 1 + 3) by omega, numbered_get, numbered_get]
    simp only [drawObjs, List.getElem?_cons_succ]
    rw [List.getElem?_append_left (by omega), List.getElem?_append_left (by omega)]
    exact ⟨h1, h2⟩
  · rw [show 2 * pages.length + 4 = 1 + (2 * pages.length + 3) by omega, numbered_get]
    simp only [drawObjs, List.getElem?_cons_succ]
    rw [List.getElem?_append_right (by omega), hl, Nat.sub_self]
    rfl
  · rw [show 2 * pages.length + 5 + i = 1 + (2 * pages.length + 1 + i + 3) by omega, numbered_get]
    simp only [drawObjs, List.getElem?_cons_succ]
    rw [List.getElem?_append_right (by omega), hl, show 2 * pages.length + 1 + i - 2 * pages.length = i + 1 by omega, List.getElem?_cons_succ, List.getElem?_map, hi]
    rfl

theorem wf_dec (d : Dec) : WF d.obj := by
  unfold Dec.obj
  split <;> trivial

theorem writable_leaves (j : Nat) (pages : List Leaf) : ∀ o ∈ leafObjs j pages, Writable o := by
  induction pages generalizing j with
  | nil => intro o h; cases h
  | cons p ps ih =>
    intro o h
    rcases List.mem_cons.1 h with rfl | h
    · refine ⟨?_, ?_⟩
      · show [nm "Type", nm "Parent", nm "MediaBox", nm "Resources", nm "Contents"].Nodup
        decide
      · exact ⟨⟨_, rfl⟩, trivial, ⟨_, rfl⟩, trivial, ⟨_, rfl⟩, ⟨trivial, trivial, wf_dec _, wf_dec _, trivial⟩, ⟨_, rfl⟩, trivial, ⟨_, rfl⟩, trivial, trivial⟩
    rcases List.mem_cons.1 h with rfl | h
    · refine ⟨⟨by simp, ⟨_, rfl⟩, trivial, trivial⟩, ?_, fun hi => leaf_notT p (hi.subset (by decide))⟩
      simp only [dictGet]
      rw [if_neg (by decide)]
      simp
    · exact ih _ o h

theorem wf_imageRefs (n images : Nat) : WF (.dict (imageRefs n images)) := by
  refine ⟨imageRefs_nodup n images, ?_⟩
  unfold imageRefs
  generalize List.range images = l
  induction l with
  | nil => trivial
  | cons i l ih => exact ⟨⟨_, rfl⟩, trivial, ih⟩

theorem writable_drawing {font : List (Key × Obj)} (hf : WF (.dict font)) {images : List (List (Key × Obj) × Bytes)} (him : ∀ i ∈ images, IsImage i) (pages : List Leaf) :
    ∀ o ∈ drawObjs font images pages, Writable o := by
  intro o h
  rcases List.mem_cons.1 h with rfl | h
  · exact ⟨by decide, ⟨_, rfl⟩, trivial, ⟨_, rfl⟩, trivial, trivial⟩
  rcases List.mem_cons.1 h with rfl | h
  · refine ⟨?_, ⟨_, rfl⟩, trivial, ⟨_, rfl⟩, wfs_refs _, ⟨_, rfl⟩, trivial, trivial⟩
    show [nm "Type", nm "Kids", nm "Count"].Nodup
    decide
  rcases List.mem_cons.1 h with rfl | h
  · refine ⟨?_, ⟨_, rfl⟩, ⟨?_, ⟨_, rfl⟩, trivial, trivial⟩, ⟨_, rfl⟩, wf_imageRefs _ _, trivial⟩
    · show [nm "Font", nm "XObject"].Nodup
      decide
    · show [nm "F1"].Nodup
      decide
  rcases List.mem_append.1 h with h | h
  · exact writable_leaves 0 pages o h
  rcases List.mem_cons.1 h with rfl | h
  · exact hf
  · obtain ⟨i, hi, rfl⟩ := List.mem_map.1 h
    exact (him i hi).1

/-- The page tree. -/
def drawTree (pages : List Leaf) : PageTree :=
  .pages (pagesDict pages.length) (pages.zipIdx.map fun x => .page ((2 * x.2 + 4 : Nat) : Int) (x.1.dict x.2))

theorem draw_trees (R : Resolver) (l : List (Leaf × Nat)) (h : ∀ x ∈ l, R.resolve1 (.ref ((2 * x.2 + 4 : Nat) : Int) 0) = .ok (.dict (x.1.dict x.2))) :
    IsTrees R (l.map fun x => .ref ((2 * x.2 + 4 : Nat) : Int) 0) (l.map fun x => .page ((2 * x.2 + 4 : Nat) : Int) (x.1.dict x.2)) := by
  induction l with
  | nil => exact .nil
  | cons k l ih => exact .cons (.page (h k (by simp)) rfl) (ih fun x hx => h x (by simp [hx]))

theorem draw_leaves (above : List Dict) (l : List (Leaf × Nat)) :
    leavesAll above (l.map fun x => .page ((2 * x.2 + 4 : Nat) : Int) (x.1.dict x.2)) = l.map fun x => (((2 * x.2 + 4 : Nat) : Int), x.1.dict x.2 :: above) := by
  induction l with
  | nil => rfl
  | cons k l ih => simp only [List.map_cons, leavesAll, PageTree.leaves, ih]; rfl

/-- The pages of the document. -/
theorem drawn_in (S : Setup) {T : List (Int × Obj)} {font : List (Key × Obj)} {images : List (List (Key × Obj) × Bytes)} {pages : List Leaf} (hT : DrawTable T font images pages)
    {ig : Bool} {k : Nat} {f : Font} (hb : buildFont (S.fontEnv (fileResolver T)) k font = .ok f) (h : ∀ p ∈ pages, ∀ m ∈ p.marks, Drawable f ig images.length m) :
    (fileResolver T).resolve1 (.ref 1 0) = .ok (.dict catalogDict) ∧ IsTree (fileResolver T) (.ref 2 0) (drawTree pages) ∧
    List.Forall₂ (fun leaf x => DrawnOn S ig f images (fileResolver T) leaf.2 x) ((drawTree pages).leaves [catalogDict]) pages := by
  have hR : (fileResolver T).Direct := fileResolver_direct T
  have hz : ∀ i g, i ≠ 0 → (fileResolver T).resolve1 (.ref i g) = .ok ((dictGet T i).getD .null) := fun i g hi => if_neg hi
  have hmem : ∀ x ∈ pages.zipIdx, pages[x.2]? = some x.1 := by
    intro x hx
    exact List.mk_mem_zipIdx_iff_getElem?.1 hx
  refine ⟨?_, ?_, ?_⟩
  · rw [hz _ _ (by decide), hT.catalog]; rfl
  · refine .pages (by rw [hz _ _ (by decide), hT.tree]; rfl) rfl rfl (hR _ (by simp)) ?_
    have h0 : ((List.range pages.length).map fun k => Obj.ref ((2 * k + 4 : Nat) : Int) 0) = pages.zipIdx.map fun x => Obj.ref ((2 * x.2 + 4 : Nat) : Int) 0 := by
      rw [List.range_eq_range', ← List.zipIdx_map_snd 0 pages, List.map_map]
      rfl
    rw [h0]
    refine draw_trees _ _ fun x hx => ?_
    rw [hz _ _ (by omega), (hT.leaves _ _ (hmem x hx)).1]; rfl
  · rw [drawTree, PageTree.leaves, draw_leaves]
    have h1 : ∀ l : List (Leaf × Nat), (∀ x ∈ l, pages[x.2]? = some x.1) → List.Forall₂ (fun leaf x => DrawnOn S ig f images (fileResolver T) leaf.2 x)
        (l.map fun x => (((2 * x.2 + 4 : Nat) : Int), x.1.dict x.2 :: pagesDict pages.length :: [catalogDict])) (l.map Prod.fst) := by
      intro l hl
      rw [List.forall₂_map_left_iff, List.forall₂_map_right_iff, List.forall₂_same]
      intro x hx
      refine ⟨font, 2 * pages.length, pages.length, x.2, k, rfl, ?_, ?_, fun i d raw hi => ?_, ?_, hb, h x.1 (List.mem_of_getElem? (hl x hx))⟩
      · rw [hz _ _ (by decide), hT.res]; rfl
      · rw [hz _ _ (by omega), hT.face]; rfl
      · rw [hz _ _ (by omega), hT.pictures i d raw hi]; rfl
      · rw [hz _ _ (by omega), (hT.leaves _ _ (hl x hx)).2]; rfl
    have h2 := h1 pages.zipIdx hmem
    rw [List.zipIdx_map_fst] at h2
    exact h2

/-- **C107.** The pages of a written document are delivered with their sizes, shapes, images and strings, in the order in which they were written. -/
theorem drawing_file (S : Setup) (hb : 0 < S.bufsiz) (opts : Options) (font : List (Key × Obj)) (hw : WF (.dict font)) (images : List (List (Key × Obj) × Bytes)) (him : ∀ i ∈ images, IsImage i)
    (pages : List Leaf) (k : Nat) (f : Font) (hf : buildFont (S.fontEnv (fileResolver (numbered 1 (drawObjs font images pages)))) k font = .ok f)
    (h : ∀ p ∈ pages, ∀ m ∈ p.marks, Drawable f opts.ignoreBad images.length m) (maxpages : Nat) (hmax : opts.maxpages = maxpages) (hne : asked opts.pagenos maxpages pages ≠ []) :
    ∃ outs, List.Forall₂ (LeafOut f opts.ignoreBad images) (asked opts.pagenos maxpages pages) outs ∧ ∃ N, ∀ fuel ≥ N,
      deliver S opts fuel (writeDrawing font images pages) = { pages := pagesWith 0 outs } := by
  obtain ⟨g1, g2, g3⟩ := drawn_in S (drawObjs_table font images pages) hf h
  have hdoc := tree_document_in S _ (writable_drawing hw him pages) _ (DrawnOn S opts.ignoreBad f images) pages g1 g2 g3
  unfold writeDrawing
  generalize writeFile (drawObjs font images pages) _ = data at hdoc ⊢
  clear hf g1 g2 g3
  obtain ⟨secs, objs, before, t, after, root, catalog, o, T, h1, h2, h3, h4, h5, h6, h7, h8, h9, h10, h11⟩ := hdoc
  exact opened_outs S data opts (DrawnOn S opts.ignoreBad f images) (LeafOut f opts.ignoreBad images) pages h9 h10 h11
    (fun ds x hx => drawnOn_text him hx) (fun p leaf x hp hx => drawn_deliver hb him hp hx)
    ((document_open hb h1 h2 h3 h4 h5 h6 h7 h8 opts.password opts.caching).mono (by
      rintro n ⟨O, k1, k2, k3, k4⟩
      exact ⟨O, k1, by rw [k2]; rfl, k3, k4⟩)) maxpages hmax hne

/-! ### Helvetica -/

theorem helvetica_drawable {f : Font} (hf : HelveticaFont f) (ig : Bool) {images : Nat} {m : Mark} (h : AsciiMark images m) : Drawable f ig images m := by
  cases m with
  | image i a b c d e f' => exact h
  | text size x y s =>
    obtain ⟨h1, h2⟩ := h
    refine ⟨⟨_, helvetica_placed hf ig (ascii_text h2)⟩, ?_⟩
    cases s with
    | nil => exact absurd rfl h1
    | cons c s => exact ⟨c :: s, _, _, by simp, hf.decode _⟩
  | _ => trivial

/-- The text of a string in Helvetica is that of its bytes. -/
theorem helvetica_text {f : Font} (hf : HelveticaFont f) {ig : Bool} {s : Bytes} {t : PyStr} (h : ∀ c ∈ s, 32 ≤ c.toNat ∧ c.toNat < 127) (ht : StringText f ig s t) : t = s.map UInt8.toNat := by
  obtain ⟨codes, ts, h1, h2, rfl⟩ := ht
  rw [hf.decode] at h1
  cases h1
  rw [List.forall₂_map_left_iff] at h2
  induction h2 with
  | nil => rfl
  | @cons c u s us h3 _ ih =>
    rw [List.flatten_cons, List.map_cons, ih fun x hx => h x (by simp [hx])]
    have hc := hf.text c.toNat _ (ascii_char c (h c (by simp)).1 (h c (by simp)).2)
    cases h3 with
    | known h4 => rw [hc] at h4; cases h4; rfl
    | unknown h4 => rw [hc] at h4; cases h4

theorem draws_shows {f : Font} (hf : HelveticaFont f) {ig : Bool} {images : List (List (Key × Obj) × Bytes)} {σ σ' : Style} {m : Mark} {is : List Item} (hm : AsciiMark images.length m)
    (h : Draws f ig images σ m σ' is) : ∃ ts, List.Forall₂ Shows is ts ∧ m.string.map UInt8.toNat = ts.flatten := by
  cases h with
  | fill _ => exact ⟨[], .nil, rfl⟩
  | stroke _ => exact ⟨[], .nil, rfl⟩
  | width => exact ⟨[], .nil, rfl⟩
  | rect _ _ => exact ⟨[[]], .cons .curve .nil, rfl⟩
  | segment _ _ => exact ⟨[[]], .cons .curve .nil, rfl⟩
  | path _ => exact ⟨[[]], .cons .curve .nil, rfl⟩
  | image _ _ => exact ⟨[[]], .cons .image .nil, rfl⟩
  | @text _ _ _ s b hb =>
    refine ⟨[_], .cons .text .nil, ?_⟩
    have := helvetica_text hf hm.2 hb.text
    simp only [List.map_cons, List.map_nil, List.flatten_singleton]
    rw [this]
    rfl

theorem drawsAll_shows {f : Font} (hf : HelveticaFont f) {ig : Bool} {images : List (List (Key × Obj) × Bytes)} {σ : Style} {ms : List Mark} {is : List Item}
    (h : DrawsAll f ig images σ ms is) (hm : ∀ m ∈ ms, AsciiMark images.length m) : ∃ ts, List.Forall₂ Shows is ts ∧ (ms.flatMap Mark.string).map UInt8.toNat = ts.flatten := by
  induction h with
  | nil => exact ⟨[], .nil, rfl⟩
  | cons h1 _ ih =>
    obtain ⟨ts, t1, t2⟩ := draws_shows hf (hm _ (by simp)) h1
    obtain ⟨us, u1, u2⟩ := ih fun x hx => hm x (by simp [hx])
    refine ⟨ts ++ us, List.rel_append t1 u1, ?_⟩
    rw [List.flatMap_cons, List.map_append, t2, u2, List.flatten_append]

theorem mem_asked {α : Type} {pagenos : List Int} {maxpages : Nat} {l : List α} {x : α} (h : x ∈ asked pagenos maxpages l) : x ∈ l := by
  unfold asked at h
  obtain ⟨y, hy, rfl⟩ := List.mem_map.1 h
  exact List.fst_mem_of_mem_zipIdx (List.mem_filter.1 hy).1

/-- **C107.** A document with shapes, images and ASCII strings in Helvetica: the pages that are asked for are delivered with their sizes and marks, and the converters write them. -/
theorem written_drawing (S : Setup) (h : Furnished S) (opts : Options) (images : List (List (Key × Obj) × Bytes)) (him : ∀ i ∈ images, IsImage i) (pages : List Leaf)
    (hp : ∀ p ∈ pages, ∀ m ∈ p.marks, AsciiMark images.length m) (maxpages : Nat) (hmax : opts.maxpages = maxpages) (hne : asked opts.pagenos maxpages pages ≠ []) :
    ∃ f, (∃ k R, buildFont (S.fontEnv R) k helvetica = .ok f) ∧ HelveticaFont f ∧
    ∃ outs, List.Forall₂ (LeafOut f opts.ignoreBad images) (asked opts.pagenos maxpages pages) outs ∧ ∃ N, ∀ fuel ≥ N,
      deliver S opts fuel (writeDrawing helvetica images pages) = { pages := pagesWith 0 outs } ∧
      Converted S opts fuel (writeDrawing helvetica images pages) ((asked opts.pagenos maxpages pages).map Leaf.sheet) (pagesWith 0 outs) := by
  obtain ⟨f, h1, h2⟩ := helvetica_built S h (fileResolver (numbered 1 (drawObjs helvetica images pages))) (fileResolver_direct _)
  obtain ⟨outs, k1, N, k2⟩ := drawing_file S h.bufsiz opts helvetica helvetica_wf images him pages 1 f h1 (fun p q m hm => helvetica_drawable h2 _ (hp p q m hm)) maxpages hmax hne
  refine ⟨f, ⟨1, _, h1⟩, h2, outs, k1, N, fun fuel hf => ⟨k2 fuel hf, delivered_converted (pagesAre_with ?_ 0) (k2 fuel hf)⟩⟩
  rw [List.forall₂_map_left_iff]
  have h3 : ∀ l os, (∀ p ∈ l, p ∈ pages) → List.Forall₂ (LeafOut f opts.ignoreBad images) l os → List.Forall₂ (fun p out => ∀ num, PageIs num (Leaf.sheet p) (pageWith num out)) l os := by
    intro l os hl ho
    induction ho with
    | nil => exact .nil
    | @cons p out _ _ hq _ ih =>
      refine .cons (fun num => ?_) (ih fun x hx => hl x (by simp [hx]))
      obtain ⟨items, rfl, hd⟩ := hq
      exact ⟨rfl, rfl, rfl, drawsAll_shows h2 hd (hp p (hl p (by simp)))⟩
  exact h3 _ _ (fun p => mem_asked) k1

/-- An image of two by two gray pixels. -/
def sampleGray : List (Key × Obj) × Bytes :=
  ([(nm "Type", .name (asc "XObject")), (nm "Subtype", .name (asc "Image")), (nm "Width", .int 2), (nm "Height", .int 2), (nm "BitsPerComponent", .int 8),
    (nm "ColorSpace", .name (asc "DeviceGray")), (nm "Length", .int 4)], [0, 255, 255, 0])

theorem sampleGray_image : IsImage sampleGray := by
  refine ⟨⟨⟨?_, ?_⟩, ?_, ?_⟩, by decide, by decide, by decide⟩
  · show [nm "Type", nm "Subtype", nm "Width", nm "Height", nm "BitsPerComponent", nm "ColorSpace", nm "Length"].Nodup
    decide
  · exact ⟨⟨_, rfl⟩, trivial, ⟨_, rfl⟩, trivial, ⟨_, rfl⟩, trivial, ⟨_, rfl⟩, trivial, ⟨_, rfl⟩, trivial, ⟨_, rfl⟩, trivial, ⟨_, rfl⟩, trivial, trivial⟩
  · decide
  · intro h
    exact absurd (h.subset (show (101 : UInt8) ∈ asc "endstream" by decide)) (by decide)

/-- A page with a rectangle in orange, a line, a picture and a string. -/
def samplePoster : Leaf :=
  ⟨⟨612, 0⟩, ⟨7925, 1⟩, [.fill ⟨1, 0⟩ ⟨5, 1⟩ ⟨0, 0⟩, .width ⟨2, 0⟩, .rect ⟨10, 0⟩ ⟨20, 0⟩ ⟨100, 0⟩ ⟨-5, 0⟩, .path (⟨0, 0⟩, ⟨0, 0⟩) (⟨725, 1⟩, ⟨725, 1⟩) [],
    .image 0 ⟨100, 0⟩ ⟨0, 0⟩ ⟨0, 0⟩ ⟨50, 0⟩ ⟨72, 0⟩ ⟨144, 0⟩, .text ⟨12, 0⟩ ⟨72, 0⟩ ⟨7205, 1⟩ (asc "Hi!")]⟩

/-- What is delivered for it: a rectangle, a line and a picture in the boxes where they were put, and a string. -/
example : ∃ N, ∀ fuel ≥ N, ∃ c ps l bc bl bi tb color, deliver sampleSetup {} fuel (writeDrawing helvetica [sampleGray] [samplePoster]) =
      { pages := [⟨0, 612, 1585 / 2, [.curve c, .curve l, .image sampleGray.1 sampleGray.2 bi, .text tb]⟩] } ∧
    c = ⟨.rect, .int 2, ps, bc, ⟨none, []⟩, color, false⟩ ∧ SmallestBox bc [(10, 20), (110, 15)] ∧
    l.kind = .line ∧ l.bbox = bl ∧ SmallestBox bl [(0, 0), (145 / 2, 145 / 2)] ∧
    SmallestBox bi [(72, 144), (172, 144), (72, 194), (172, 194)] ∧
    (∃ x y z : Int, color = ⟨some ⟨asc "DeviceRGB", .int 3⟩, [.int x, .int y, .int z]⟩ ∧ x = 255 ∧ (y = 127 ∨ y = 128) ∧ z = 0) ∧
    tb.blocks.map (fun cb => (cb.chars.map Prod.fst).flatten) = [pstr "Hi!"] := by
  have ha : asked ({} : Options).pagenos 0 [samplePoster] = [samplePoster] := by simp [asked, Wanted]
  obtain ⟨f, _, hf, outs, k1, N, k2⟩ := written_drawing sampleSetup sample_furnished {} [sampleGray] (by intro i hi; rw [List.mem_singleton.1 hi]; exact sampleGray_image) [samplePoster]
    (by
      intro p hp m hm
      rw [List.mem_singleton.1 hp] at hm
      simp only [samplePoster, List.mem_cons, List.not_mem_nil, or_false] at hm
      rcases hm with rfl | rfl | rfl | rfl | rfl | rfl
      · trivial
      · trivial
      · trivial
      · trivial
      · exact Nat.zero_lt_one
      · exact ⟨by decide, by decide⟩) 0 rfl (by rw [ha]; simp)
  rw [ha] at k1
  cases k1 with
  | cons ho hn =>
  cases hn
  obtain ⟨items, rfl, hd⟩ := ho
  refine ⟨N, fun fuel hfu => ?_⟩
  have hdel := (k2 fuel hfu).1
  simp only [samplePoster] at hd
  cases hd with
  | cons d1 hd =>
  cases hd with
  | cons d2 hd =>
  cases hd with
  | cons d3 hd =>
  cases hd with
  | cons d4 hd =>
  cases hd with
  | cons d5 hd =>
  cases hd with
  | cons d6 hd =>
  cases hd
  cases d1 with
  | @fill _ _ _ col hc =>
  cases d2 with
  | width =>
  cases d3 with
  | @rect _ _ _ _ ps bc hq hbc =>
  cases d4 with
  | @segment _ _ kd bl hk hbl =>
  cases d5 with
  | @image _ d raw bi _ _ _ _ _ _ hi hbi =>
  cases d6 with
  | @text _ _ _ s b hb =>
  obtain ⟨rfl, rfl⟩ : d = sampleGray.1 ∧ raw = sampleGray.2 := by
    have : some sampleGray = some (d, raw) := hi
    injection this with this
    rw [this]
    exact ⟨rfl, rfl⟩
  refine ⟨_, ps, ⟨kd, .int 2, [⟨.moveTo, [(some (Dec.val ⟨0, 0⟩), some (Dec.val ⟨0, 0⟩))]⟩, lineTo (spot (⟨725, 1⟩, ⟨725, 1⟩))], bl, ⟨none, []⟩, col, false⟩, bc, bl, bi, ⟨some b.bbox, [b]⟩, col, ?_, rfl, ?_, ?_, ?_, ?_, ?_, ?_, ?_⟩
  · have e1 : samplePoster.width.val = 612 := by simp only [samplePoster, Dec.val]; norm_num
    have e2 : samplePoster.height.val = 1585 / 2 := by simp only [samplePoster, Dec.val]; norm_num
    rw [hdel, e1, e2]
    rfl
  · have e : [(Dec.val ⟨10, 0⟩, Dec.val ⟨20, 0⟩), (Dec.val ⟨10, 0⟩ + Dec.val ⟨100, 0⟩, Dec.val ⟨20, 0⟩ + Dec.val ⟨-5, 0⟩)] = [((10 : ℚ), (20 : ℚ)), (110, 15)] := by
      simp only [Dec.val]; norm_num
    rw [← e]
    exact hbc
  · cases hk with
    | vertical h => simp only [spot, Dec.val] at h; norm_num at h
    | horizontal _ h => simp only [spot, Dec.val] at h; norm_num at h
    | line => rfl
  · rfl
  · have e : [spot (⟨0, 0⟩, ⟨0, 0⟩), spot (⟨725, 1⟩, ⟨725, 1⟩)] = [((0 : ℚ), (0 : ℚ)), (145 / 2, 145 / 2)] := by
      simp only [spot, Dec.val]; norm_num
    rw [← e]
    exact hbl
  · simp only [Dec.val, List.map_cons, List.map_nil, List.mem_cons, List.not_mem_nil, or_false, forall_eq_or_imp, forall_eq, Box, INF, Set.mem_ofPred_eq] at hbi
    norm_num at hbi
    exact hbi
  · obtain ⟨x, y, z, rfl, n1, n2, n3⟩ := hc
    simp only [Nearest, Dec.val, abs_le] at n1 n2 n3
    norm_num at n1 n2 n3
    have near : ∀ {q : ℚ} {a b v : Int}, (a : ℚ) < v → (v : ℚ) < b → a + 1 ≤ v ∧ v ≤ b - 1 := by
      intro _ a b v h1 h2
      have : a < v := by exact_mod_cast h1
      have : v < b := by exact_mod_cast h2
      omega
    have hx := near (q := 0) (a := 254) (b := 256) (v := x) (by push_cast; linarith [n1.1, n1.2]) (by push_cast; linarith [n1.1, n1.2])
    have hy := near (q := 0) (a := 126) (b := 129) (v := y) (by push_cast; linarith [n2.1, n2.2]) (by push_cast; linarith [n2.1, n2.2])
    have hz := near (q := 0) (a := -1) (b := 1) (v := z) (by push_cast; linarith [n3.1, n3.2]) (by push_cast; linarith [n3.1, n3.2])
    exact ⟨x, y, z, rfl, by omega, by omega, by omega⟩
  · have := helvetica_text hf (by decide) hb.text
    simp only [List.map_cons, List.map_nil]
    rw [this]
    rfl

end Pdf
