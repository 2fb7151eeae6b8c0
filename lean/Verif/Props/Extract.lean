import Verif.Spec.Extract
import Verif.Props.Run
import Verif.Props.ConvJson
import Verif.Props.Xref
/-! Property C88: the text extracted from a content stream. -/

namespace Pdf

open Spec (Operand operator ProgramShows FontNamed XObjectNamed ResourceNamed StringText ArrayText CodeShows Pen IsForm ResourcesOfForm)

theorem textItems_append (a b : List Item) : textItems (a ++ b) = textItems a ++ textItems b := by
  induction a with
  | nil => simp [textItems]
  | cons i a ih => simp only [List.cons_append, textItems, ih, List.append_assoc]

/-- What the text operators look at. -/
def view (s : St) : Option Font × Bool × List (Mat × TState × GState) × Option TextBlock × Obj × List (Key × Font) × List (Key × Obj) :=
  (s.text.font, s.text.ignoreBad, s.gstack, s.block, s.resources, s.fontmap, s.xobjmap)

/-- The operator shows no text and changes nothing that matters for the text. -/
def Quiet (f : Op) : Prop := ∀ as s s', f as s = .ok s' → view s' = view s ∧ ∃ is, s'.done = s.done ++ is ∧ (∀ i ∈ is, NotForm i) ∧ textItems is = []

theorem quiet_of {f : Op} (h1 : OpKeeps f view) (h2 : OpKeeps f St.done) : Quiet f :=
  fun as s s' h => ⟨h1 as s s' h, [], by rw [h2 as s s' h, List.append_nil], by simp, by simp [textItems]⟩

theorem makeCurve_quiet {m : Mat} {g : GState} {eo : Bool} {ps : List CurvePath} {i : Item} (h : makeCurve m g eo ps = .ok i) : NotForm i ∧ textItem i = [] := by
  unfold makeCurve at h
  split at h
  · split at h <;> cases h
    exact ⟨(by intro _ _ _ _ _ h; cases h), by simp [textItem]⟩
  · split at h
    · split at h <;> cases h
      · exact ⟨(by intro _ _ _ _ _ h; cases h), by simp [textItem]⟩
      · exact ⟨(by intro _ _ _ _ _ h; cases h), by simp [textItem]⟩
    · cases h
    · cases h
  · split at h <;> cases h
    exact ⟨(by intro _ _ _ _ _ h; cases h), by simp [textItem]⟩

theorem paint_quiet (eo : Bool) : Quiet (opPaint eo) := by
  intro as s s' h
  simp only [opPaint] at h
  split at h
  · cases h
  · rename_i i hi
    cases h
    obtain ⟨h1, h2⟩ := makeCurve_quiet hi
    exact ⟨rfl, [i], rfl, by simpa using h1, by simp [textItems, h2]⟩

theorem setT_quiet (f : TState → Obj → TState) (h : ∀ t x, (f t x).font = t.font ∧ (f t x).ignoreBad = t.ignoreBad) : Quiet (setT f) := by
  intro as s s' e
  simp only [setT] at e
  split at e
  · cases e
    refine ⟨?_, [], by simp, by simp, by simp [textItems]⟩
    simp only [view, (h _ _).1, (h _ _).2]
  · cases e

/-- The method names of the text operators. -/
def textMethods : List Bytes := [asc "q", asc "Q", asc "BT", asc "ET", asc "Tf", asc "Tj", asc "TJ", asc "_q", asc "_w", asc "Do"]

theorem commands_quiet (R : Resolver) : ∀ e ∈ commands R, e.1 ∉ textMethods → Quiet e.2.2 := by
  have l : ∀ {P : (Bytes × Nat × Op) → Prop}, (∀ e ∈ commands R, P e) ↔ List.Forall P (commands R) := fun {P} => (List.forall_iff_forall_mem).symm
  rw [l]
  simp only [commands, List.Forall]
  have hL : Quiet opLeading := by
    intro as s s' h
    simp only [opLeading] at h
    split at h
    · split at h <;> cases h
      exact ⟨rfl, [], by simp, by simp, by simp [textItems]⟩
    · cases h
  have hM : Quiet opMove := by
    intro as s s' h
    simp only [opMove, bind, Except.bind] at h
    split at h
    · split at h
      · cases h
      · split at h <;> cases h
        exact ⟨rfl, [], by simp [newLine], by simp, by simp [textItems]⟩
    · cases h
  have hD : Quiet opMoveLead := by
    intro as s s' h
    simp only [opMoveLead, bind, Except.bind] at h
    split at h
    · split at h
      · cases h
      · split at h <;> cases h
        exact ⟨rfl, [], by simp [newLine], by simp, by simp [textItems]⟩
    · cases h
  have hX : Quiet opMatrix := by
    intro as s s' h
    simp only [opMatrix, bind, Except.bind] at h
    split at h <;> cases h
    exact ⟨rfl, [], by simp [newLine], by simp, by simp [textItems]⟩
  have hN : Quiet opNextLine := by
    intro as s s' h
    simp only [opNextLine] at h
    cases h
    exact ⟨rfl, [], by simp [nextLine, newLine], by simp, by simp [textItems]⟩
  have hI : Quiet opImage := by
    intro as s s' h
    simp only [opImage] at h
    split at h
    · split at h <;> cases h
      · exact ⟨rfl, [_], rfl, by simp [NotForm], by simp [textItems, textItem]⟩
      · exact ⟨rfl, [], by simp, by simp, by simp [textItems]⟩
    · cases h
      exact ⟨rfl, [], by simp, by simp, by simp [textItems]⟩
    · cases h
  refine ⟨?_, ?_, ?_, ?_, ?_, ?_, ?_, ?_, ?_, ?_, ?_, ?_, ?_, ?_, ?_, ?_, ?_, ?_, ?_, ?_, ?_, ?_, ?_, ?_, ?_, ?_, ?_, ?_, ?_, ?_, ?_, ?_, ?_, ?_, ?_, ?_,
    ?_, ?_, ?_, ?_, ?_, ?_, ?_, ?_, ?_, ?_, ?_, ?_, ?_, ?_, ?_, ?_, ?_, ?_, ?_, ?_, ?_, ?_⟩ <;> intro hn
  all_goals first
    | exact absurd (by decide) hn
    | exact quiet_of (keeps_concat fun _ _ => rfl) (keeps_concat fun _ _ => rfl)
    | exact quiet_of (keeps_setG (fun _ _ => rfl) _) (keeps_setG (fun _ _ => rfl) _)
    | exact quiet_of (keeps_dash fun _ _ => rfl) (keeps_dash fun _ _ => rfl)
    | exact quiet_of (keeps_space (fun _ _ => rfl) _) (keeps_space (fun _ _ => rfl) _)
    | exact quiet_of (keeps_color (fun _ _ => rfl) _ _) (keeps_color (fun _ _ => rfl) _ _)
    | exact quiet_of (keeps_rgb (fun _ _ => rfl) _) (keeps_rgb (fun _ _ => rfl) _)
    | exact quiet_of (keeps_custom (fun _ _ _ => rfl) _ _) (keeps_custom (fun _ _ _ => rfl) _ _)
    | exact quiet_of (keeps_curve (fun _ _ => rfl) _) (keeps_curve (fun _ _ => rfl) _)
    | exact quiet_of (keeps_rect fun _ _ => rfl) (keeps_rect fun _ _ => rfl)
    | exact quiet_of (keeps_endPath fun _ _ => rfl) (keeps_endPath fun _ _ => rfl)
    | exact paint_quiet _
    | exact fun as s s' h => paint_quiet _ as { s with curves := s.curves ++ [⟨.closePath, []⟩] } s' h
    | exact setT_quiet _ (fun _ _ => ⟨rfl, rfl⟩)
    | exact hL | exact hM | exact hD | exact hX | exact hN | exact hI

theorem methodName_text (n : Bytes) (h : .kw n ∉ Spec.textOperators) (hc : ∀ c ∈ n, c ≠ 95) : methodName n ∉ textMethods := by
  intro hm
  have simple : ∀ m : Bytes, (∀ c ∈ m, c ≠ 95) → .kw m ∈ Spec.textOperators → methodName n ≠ m := by
    intro m hm hin e
    rw [methodName_simple n m hm e] at h
    exact h hin
  have special : ∀ (x : UInt8) (c : UInt8), methodName n = [95, x] → (c = 39 ∧ x = 113 ∨ c = 34 ∧ x = 119) → n = [c] := by
    intro x c e hx
    cases n with
    | nil => cases e
    | cons b n =>
      have hb := hc b (List.mem_cons_self ..)
      rw [methodName, List.flatMap_cons] at e
      change _ ++ methodName n = _ at e
      have hlen : methodName n = [] → n = [] := by
        intro e
        cases n with
        | nil => rfl
        | cons a n =>
          rw [methodName, List.flatMap_cons] at e
          have := (List.append_eq_nil_iff.1 e).1
          split at this
          · cases this
          · split at this
            · cases this
            · split at this <;> cases this
      split at e
      · simp only [List.cons_append, List.nil_append, List.cons.injEq] at e
        rw [← e.2.1] at hx
        rcases hx with ⟨_, h⟩ | ⟨_, h⟩ <;> exact absurd h (by decide)
      · split at e
        · subst_vars
          simp only [List.cons_append, List.nil_append, List.cons.injEq] at e
          rw [hlen e.2.2]
          rcases hx with ⟨_, h⟩ | ⟨rfl, _⟩
          · rw [← e.2.1] at h; exact absurd h (by decide)
          · rfl
        · split at e
          · subst_vars
            simp only [List.cons_append, List.nil_append, List.cons.injEq] at e
            rw [hlen e.2.2]
            rcases hx with ⟨rfl, _⟩ | ⟨_, h⟩
            · rfl
            · rw [← e.2.1] at h; exact absurd h (by decide)
          · simp only [List.cons_append, List.nil_append, List.cons.injEq] at e
            exact absurd e.1 hb
  simp only [textMethods, List.mem_cons, List.not_mem_nil, or_false] at hm
  rcases hm with e | e | e | e | e | e | e | e | e | e
  · exact simple _ (by decide) (by decide) e
  · exact simple _ (by decide) (by decide) e
  · exact simple _ (by decide) (by decide) e
  · exact simple _ (by decide) (by decide) e
  · exact simple _ (by decide) (by decide) e
  · exact simple _ (by decide) (by decide) e
  · exact simple _ (by decide) (by decide) e
  · have := special 113 39 e (.inl ⟨rfl, rfl⟩)
    subst this
    exact h (by decide)
  · have := special 119 34 e (.inr ⟨rfl, rfl⟩)
    subst this
    exact h (by decide)
  · exact simple _ (by decide) (by decide) e

/-! ### Showing strings -/

theorem toText_code {f : Font} {ig : Bool} {c : Int} {t u : Text} (h : CodeShows f ig c t) (e : toText f ig c = .ok u) : u = t := by
  unfold toText at e
  cases h with
  | known h => rw [h] at e; cases e; rfl
  | unknown h hi =>
    rw [h] at e
    simp only [hi, and_self, if_true] at e
    cases e; rfl

/-- The text of the characters so far. -/
def renderText (r : Render) : Text := (r.chars.map Prod.fst).flatten

theorem renderCids_text {f : Font} {p : ShowPar} {ig : Bool} {cids : List Int} {ts : List Text} (h : List.Forall₂ (CodeShows f ig) cids ts) {r r' : Render}
    (e : renderCids f p ig cids r = .ok r') : renderText r' = renderText r ++ ts.flatten := by
  induction h generalizing r with
  | nil => simp only [renderCids] at e; cases e; simp
  | @cons c t cids ts hc _ ih =>
    simp only [renderCids] at e
    split at e
    · cases e
    · rename_i r1 h1
      rw [ih e]
      simp only [renderCid, bind, Except.bind] at h1
      split at h1
      · cases h1
      · rename_i u hu
        split at h1
        · cases h1
        · cases h1
          rw [toText_code hc hu]
          simp [renderText]

theorem renderSeq_text {f : Font} {p : ShowPar} {ig : Bool} {l : List Obj} {t : Text} (h : ArrayText f ig l t) {r r' : Render}
    (e : renderSeq f p ig l r = .ok r') : renderText r' = renderText r ++ t := by
  induction h generalizing r with
  | nil => simp only [renderSeq] at e; cases e; simp
  | @number o q l t hq _ ih =>
    simp only [renderSeq, renderObj, hq] at e
    rw [ih e]
    rfl
  | @string s l t u hs _ ih =>
    obtain ⟨codes, ts, h1, h2, rfl⟩ := hs
    simp only [renderSeq, renderObj, Obj.num?, h1] at e
    split at e
    · cases e
    · rename_i r1 hr
      rw [ih e, renderCids_text h2 hr, List.append_assoc]

/-- The text of a text block. -/
def blockText (b : TextBlock) : Text := textItem (.text b)

theorem showText_shows {f : Font} {seq : List Obj} {v u : Text} {s s' : St} (hf : s.text.font = some f) (hb : s.block.map blockText = some u)
    (h : ArrayText f s.text.ignoreBad seq v) (e : showText seq s = .ok s') :
    s'.block.map blockText = some (u ++ v) ∧ ({ s' with block := s.block } : St) = { s with lines := s'.lines } := by
  unfold showText at e
  rw [hf] at e
  cases hblk : s.block with
  | none => rw [hblk] at hb; cases hb
  | some blk =>
    rw [hblk] at hb e
    simp only at e
    split at e
    · cases e
    · rename_i b line hs
      cases e
      refine ⟨?_, by simp only [hblk]⟩
      simp only [showSeq, bind, Except.bind] at hs
      split at hs
      · cases hs
      · split at hs
        · cases hs
        · rename_i r hr
          split at hs
          · cases hs
          · rename_i b' hmk
            cases hs
            have ht := renderSeq_text h hr
            have hbt : (b.chars.map Prod.fst) = r.chars.map Prod.fst := by
              unfold mkCharBlock at hmk
              split at hmk
              · cases hmk
              · rename_i c cs hc
                cases hmk
                rw [hc, List.map_map]
                rfl
            simp only [Option.map_some, Option.some.injEq] at hb ⊢
            rw [← hb]
            simp only [blockText, textItem, List.flatMap_append, List.flatMap_cons, List.flatMap_nil, List.append_nil]
            congr 1
            have : (b.chars.flatMap fun c => c.1) = (b.chars.map Prod.fst).flatten := flatMap_flatten _ _
            rw [this, hbt]
            simpa [renderText] using ht

/-! ### Resources -/

theorem initFonts_frame {E : Env1} {l : List (Key × Obj)} {s s' : St} (h : initFonts E l s = .ok s') :
    ∃ m, s' = { s with fontmap := m } ∧ ∀ k ∉ l.map Prod.fst, dictGet m k = dictGet s.fontmap k := by
  induction l generalizing s with
  | nil => simp only [initFonts] at h; cases h; exact ⟨_, rfl, fun _ _ => rfl⟩
  | cons e l ih =>
    obtain ⟨k, spec⟩ := e
    simp only [initFonts] at h
    split at h
    · cases h
    · split at h
      · cases h
      · obtain ⟨m, rfl, hm⟩ := ih h
        refine ⟨m, rfl, fun k' hk' => ?_⟩
        simp only [List.map_cons, List.mem_cons, not_or] at hk'
        rw [hm k' hk'.2, dictGet_dictSet, if_neg]
        exact fun e => hk'.1 (by first | exact e | exact e.symm)

theorem initFonts_get {E : Env1} {l : List (Key × Obj)} {s s' : St} (h : initFonts E l s = .ok s') (nd : (l.map Prod.fst).Nodup) {k : Key} {o : Obj}
    {d : List (Key × Obj)} {f : Font} (hk : dictGet l k = some o) (hd : E.R.resolve1 o = .ok (.dict d)) (hf : E.getFont (refId o) d = .ok f) :
    dictGet s'.fontmap k = some f := by
  induction l generalizing s with
  | nil => cases hk
  | cons e l ih =>
    obtain ⟨k', spec⟩ := e
    simp only [List.map_cons, List.nodup_cons] at nd
    simp only [dictGet] at hk
    simp only [initFonts] at h
    split at h
    · cases h
    · rename_i d' hd'
      split at h
      · cases h
      · rename_i f' hf'
        split at hk
        · rename_i e
          subst e
          cases hk
          simp only [Resolver.dictValue, hd] at hd'
          cases hd'
          rw [hf] at hf'
          cases hf'
          obtain ⟨m, rfl, hm⟩ := initFonts_frame h
          simp only
          rw [hm _ nd.1, dictGet_dictSet]
          simp
        · exact ih h nd.2 hk

theorem initSpaces_frame {R : Resolver} {l : List (Key × Obj)} {s s' : St} (h : initSpaces R l s = .ok s') : ∃ m, s' = { s with csmap := m } := by
  induction l generalizing s with
  | nil => simp only [initSpaces] at h; cases h; exact ⟨_, rfl⟩
  | cons e l ih =>
    obtain ⟨k, spec⟩ := e
    simp only [initSpaces] at h
    split at h
    · cases h
    · split at h
      · cases h
      · obtain ⟨m, rfl⟩ := ih h
        exact ⟨m, rfl⟩

theorem initEntry_frame {E : Env1} {k : Key} {v : Obj} {s s' : St} (h : initEntry E k v s = .ok s') :
    ∃ c f x, s' = { s with csmap := c, fontmap := f, xobjmap := x } ∧ (k ≠ nm "Font" → f = s.fontmap) ∧ (k ≠ nm "XObject" → x = s.xobjmap) := by
  unfold initEntry at h
  split at h
  · rename_i hk
    split at h
    · cases h
    · obtain ⟨m, rfl, _⟩ := initFonts_frame h
      exact ⟨_, _, _, rfl, fun hn => absurd hk hn, fun _ => rfl⟩
  · split at h
    · split at h
      · cases h
      · obtain ⟨m, rfl⟩ := initSpaces_frame h
        exact ⟨_, _, _, rfl, fun _ => rfl, fun _ => rfl⟩
    · split at h
      · split at h
        · cases h
        · cases h; exact ⟨_, _, _, rfl, fun _ => rfl, fun _ => rfl⟩
      · split at h
        · rename_i hk
          split at h
          · cases h
          · cases h; exact ⟨_, _, _, rfl, fun _ => rfl, fun hn => absurd hk hn⟩
        · cases h; exact ⟨_, _, _, rfl, fun _ => rfl, fun _ => rfl⟩

theorem initEntries_frame {E : Env1} {l : List (Key × Obj)} {s s' : St} (h : initEntries E l s = .ok s') :
    ∃ c f x, s' = { s with csmap := c, fontmap := f, xobjmap := x } ∧ (nm "Font" ∉ l.map Prod.fst → f = s.fontmap) ∧
      (nm "XObject" ∉ l.map Prod.fst → x = s.xobjmap) := by
  induction l generalizing s with
  | nil => simp only [initEntries] at h; cases h; exact ⟨_, _, _, rfl, fun _ => rfl, fun _ => rfl⟩
  | cons e l ih =>
    obtain ⟨k, v⟩ := e
    simp only [initEntries] at h
    split at h
    · cases h
    · rename_i s1 h1
      obtain ⟨c1, f1, x1, rfl, hf1, hx1⟩ := initEntry_frame h1
      obtain ⟨c, f, x, rfl, hf, hx⟩ := ih h
      refine ⟨c, f, x, rfl, fun hn => ?_, fun hn => ?_⟩ <;> simp only [List.map_cons, List.mem_cons, not_or] at hn
      · rw [hf hn.2]; exact hf1 (Ne.symm hn.1)
      · rw [hx hn.2]; exact hx1 (Ne.symm hn.1)

theorem initEntries_font {E : Env1} {l : List (Key × Obj)} {s s' : St} (h : initEntries E l s = .ok s') (nd : (l.map Prod.fst).Nodup) {v : Obj}
    {es : List (Key × Obj)} (hv : dictGet l (nm "Font") = some v) (he : E.R.resolve1 v = .ok (.dict es)) (nde : (es.map Prod.fst).Nodup) {k : Key} {o : Obj}
    {d : List (Key × Obj)} {f : Font} (hk : dictGet es k = some o) (hd : E.R.resolve1 o = .ok (.dict d)) (hf : E.getFont (refId o) d = .ok f) :
    dictGet s'.fontmap k = some f := by
  induction l generalizing s with
  | nil => cases hv
  | cons e l ih =>
    obtain ⟨k', v'⟩ := e
    simp only [List.map_cons, List.nodup_cons] at nd
    simp only [dictGet] at hv
    simp only [initEntries] at h
    split at h
    · cases h
    · rename_i s1 h1
      split at hv
      · rename_i e
        cases hv
        have hk' : k' = nm "Font" := by first | exact e | exact e.symm
        subst hk'
        simp only [initEntry, if_true, Resolver.dictValue, he] at h1
        have := initFonts_get h1 nde hk hd hf
        obtain ⟨_, f1, _, rfl, hf1, _⟩ := initEntries_frame h
        simp only
        rw [hf1 nd.1]
        exact this
      · exact ih h nd.2 hv

theorem foldl_dictSet_get {α : Type} (l : List (Key × α)) (m : List (Key × α)) (nd : (l.map Prod.fst).Nodup) {k : Key} {o : α} (h : dictGet l k = some o) :
    dictGet (l.foldl (fun m e => dictSet m e.1 e.2) m) k = some o := by
  have frame : ∀ (l m : List (Key × α)), k ∉ l.map Prod.fst → dictGet (l.foldl (fun m e => dictSet m e.1 e.2) m) k = dictGet m k := by
    intro l
    induction l with
    | nil => intro m _; rfl
    | cons e l ih =>
      intro m hn
      simp only [List.map_cons, List.mem_cons, not_or] at hn
      rw [List.foldl_cons, ih _ hn.2, dictGet_dictSet, if_neg]
      exact fun e => hn.1 (by first | exact e | exact e.symm)
  induction l generalizing m with
  | nil => cases h
  | cons e l ih =>
    obtain ⟨k', v'⟩ := e
    simp only [List.map_cons, List.nodup_cons] at nd
    simp only [dictGet] at h
    rw [List.foldl_cons]
    split at h
    · rename_i e
      cases h
      have hk' : k' = k := by first | exact e | exact e.symm
      subst hk'
      rw [frame l _ nd.1, dictGet_dictSet]
      simp
    · exact ih _ nd.2 h

theorem initEntries_xobj {E : Env1} {l : List (Key × Obj)} {s s' : St} (h : initEntries E l s = .ok s') (nd : (l.map Prod.fst).Nodup) {v : Obj}
    {es : List (Key × Obj)} (hv : dictGet l (nm "XObject") = some v) (he : E.R.resolve1 v = .ok (.dict es)) (nde : (es.map Prod.fst).Nodup) {k : Key} {o : Obj}
    (hk : dictGet es k = some o) : dictGet s'.xobjmap k = some o := by
  induction l generalizing s with
  | nil => cases hv
  | cons e l ih =>
    obtain ⟨k', v'⟩ := e
    simp only [List.map_cons, List.nodup_cons] at nd
    simp only [dictGet] at hv
    simp only [initEntries] at h
    split at h
    · cases h
    · rename_i s1 h1
      split at hv
      · rename_i e
        cases hv
        have hk' : k' = nm "XObject" := by first | exact e | exact e.symm
        subst hk'
        simp only [initEntry] at h1
        rw [if_neg (by decide), if_neg (by decide), if_neg (by decide)] at h1
        simp only [if_true, Resolver.dictValue, he] at h1
        cases h1
        obtain ⟨_, _, x1, rfl, _, hx1⟩ := initEntries_frame h
        simp only
        rw [hx1 nd.1]
        exact foldl_dictSet_get es _ nde hk
      · exact ih h nd.2 hv

/-! ### The interpreter -/

/-- The state of the interpreter and the pen agree. -/
structure Agrees (E : Env1) (ig : Bool) (res : Obj) (pen : Pen) (s : St) : Prop where
  font : s.text.font = pen.font
  ignore : s.text.ignoreBad = ig
  saved : s.gstack.map (fun e => e.2.1.font) = pen.saved
  savedIgnore : ∀ e ∈ s.gstack, e.2.1.ignoreBad = ig
  shown : s.block.map blockText = pen.shown
  resources : s.resources = res
  fonts : ∀ n f, FontNamed E res n f → dictGet s.fontmap (.name n) = some f
  xobjs : ∀ n o, XObjectNamed E.R res n o → ∃ r, dictGet s.xobjmap (.name n) = some r ∧ E.R.resolve1 r = .ok o
  done : s.done = []

theorem agrees_of_view {E : Env1} {ig : Bool} {res : Obj} {pen : Pen} {s s' : St} (h : Agrees E ig res pen s) (hv : view s' = view s) :
    Agrees E ig res pen { s' with done := [] } := by
  simp only [view, Prod.mk.injEq] at hv
  obtain ⟨h1, h2, h3, h4, h5, h6, h7⟩ := hv
  exact ⟨h1.trans h.font, h2.trans h.ignore, by simpa only [h3] using h.saved, by simpa only [h3] using h.savedIgnore, by simpa only [h4] using h.shown,
    h5.trans h.resources, by simpa only [h6] using h.fonts, by simpa only [h7] using h.xobjs, rfl⟩

theorem agrees_start {E : Env1} {ctm : Mat} {ig : Bool} {res : Obj} {s : St} (h : prepState E ctm res ig = .ok s) : Agrees E ig res Pen.start s := by
  simp only [prepState, initResources] at h
  split at h
  · cases h
  · rename_i d hd
    have hfr := initEntries_frame h
    have hfonts : ∀ n f, FontNamed E res n f → dictGet s.fontmap (.name n) = some f := by
      rintro n f ⟨o, fd, ⟨d', es, hr, nd, he, nde, hk⟩, ho, hf⟩
      simp only [Resolver.dictValue, hr] at hd
      cases hd
      cases he with
      | given h1 h2 => exact initEntries_font h nd h1 h2 nde hk ho hf
    have hx : ∀ n o, XObjectNamed E.R res n o → ∃ r, dictGet s.xobjmap (.name n) = some r ∧ E.R.resolve1 r = .ok o := by
      rintro n o ⟨r, ⟨d', es, hr, nd, he, nde, hk⟩, ho⟩
      simp only [Resolver.dictValue, hr] at hd
      cases hd
      cases he with
      | given h1 h2 => exact ⟨r, initEntries_xobj h nd h1 h2 nde hk, ho⟩
    obtain ⟨c, f, x, rfl, _, _⟩ := hfr
    exact ⟨rfl, rfl, rfl, by simp, rfl, rfl, hfonts, hx, rfl⟩

theorem runWith_cons {E : Env1} {nested : List Obj → St → Gen Item} {o : Obj} {os : List Obj} {e : Option PyErr} {s s' : St} {items : List Item}
    (h : runWith E nested (o :: os) e s = ((items, none), s')) :
    ∃ s1 i1 i2, exec E.R s o = .ok s1 ∧ finish E nested s1.graphics s1.done = (i1, none) ∧
      runWith E nested os e { s1 with done := [] } = ((i2, none), s') ∧ items = i1 ++ i2 := by
  simp only [runWith] at h
  split at h
  · cases h
  · rename_i s1 h1
    split at h
    · cases h
    · rename_i i1 hf
      generalize hr : runWith E nested os e { s1 with done := [] } = r at h
      obtain ⟨⟨i2, e2⟩, s2⟩ := r
      simp only [Prod.mk.injEq] at h
      obtain ⟨⟨rfl, rfl⟩, rfl⟩ := h
      exact ⟨s1, i1, i2, h1, hf, hr, rfl⟩

theorem runWith_operand {E : Env1} {nested : List Obj → St → Gen Item} {o : Obj} (ho : Operand o) {os : List Obj} {e : Option PyErr} {s : St} (hs : s.done = []) :
    runWith E nested (o :: os) e s = runWith E nested os e { s with args := s.args ++ [o] } := by
  simp only [runWith, exec_operand E.R s o ho, hs, finish, List.nil_append]

theorem runWith_operands {E : Env1} {nested : List Obj → St → Gen Item} {as : List Obj} (ha : ∀ a ∈ as, Operand a) {os : List Obj} {e : Option PyErr} {s : St}
    (hs : s.done = []) : runWith E nested (as ++ os) e s = runWith E nested os e { s with args := s.args ++ as } := by
  induction as generalizing s with
  | nil => simp
  | cons a as ih =>
    rw [List.cons_append, runWith_operand (ha a (List.mem_cons_self ..)) hs, ih (s := { s with args := s.args ++ [a] }) (fun b hb => ha b (List.mem_cons_of_mem _ hb)) hs]
    simp

/-- An operator with its operands. -/
theorem runWith_op {E : Env1} {nested : List Obj → St → Gen Item} {as : List Obj} {n : Bytes} {f : Op} {os : List Obj} {e : Option PyErr} {s s' : St}
    {items : List Item} (ha : ∀ a ∈ as, Operand a) (hf : dictGet (commands E.R) (methodName n) = some (as.length, f)) (hs : s.done = [])
    (h : runWith E nested (as ++ .kw n :: os) e s = ((items, none), s')) :
    ∃ s1 i1 i2, f as s = .ok s1 ∧ finish E nested s1.graphics s1.done = (i1, none) ∧
      runWith E nested os e { s1 with done := [] } = ((i2, none), s') ∧ items = i1 ++ i2 := by
  rw [runWith_operands ha hs] at h
  obtain ⟨s1, i1, i2, h1, h2⟩ := runWith_cons h
  refine ⟨s1, i1, i2, ?_, h2⟩
  have := operands_exact E.R s as n f ha hf
  rw [execs_append, execs_operands E.R s as ha] at this
  simp only [execs, h1] at this
  exact this.symm

theorem str_operand (s : Bytes) : Operand (.str s) := fun _ h => by cases h
theorem name_operand (s : Bytes) : Operand (.name s) := fun _ h => by cases h
theorem arr_operand (l : List Obj) : Operand (.arr l) := fun _ h => by cases h

theorem stringText_array {f : Font} {ig : Bool} {s : Bytes} {v : Text} (h : StringText f ig s v) : ArrayText f ig [.str s] v := by
  have := ArrayText.string h .nil
  rwa [List.append_nil] at this

theorem exec_quiet {R : Resolver} {n : Bytes} (h : .kw n ∉ Spec.textOperators) (hc : ∀ c ∈ n, c ≠ 95) {s s' : St} (e : exec R s (.kw n) = .ok s') :
    view s' = view s ∧ ∃ is, s'.done = s.done ++ is ∧ (∀ i ∈ is, NotForm i) ∧ textItems is = [] := by
  simp only [exec] at e
  split at e
  · cases e; exact ⟨rfl, [], by simp, by simp, by simp [textItems]⟩
  · rename_i k f hf
    have hk : Quiet f := commands_quiet R _ (dictGet_mem_list hf) (methodName_text n h hc)
    split at e
    · exact hk _ _ _ e
    · split at e
      · exact hk _ { s with args := (popArgs k s.args).2 } _ e
      · cases e

theorem program_shows {E : Env1} {ig : Bool} {res : Obj} {pen : Pen} {os : List Obj} {t : Text} (h : ProgramShows E ig res pen os t) :
    ∀ (fuel : Nat) (e : Option PyErr) (s s' : St) (items : List Item), Agrees E ig res pen s →
      runWith E (fun st s => (run E fuel st s).1) os e s = ((items, none), s') → textItems items = t := by
  induction h with
  | done =>
    intro fuel e s s' items ha hr
    simp only [runWith] at hr
    cases hr
    simp [textItems]
  | operand ho _ ih =>
    intro fuel e s s' items ha hr
    rw [runWith_operand ho ha.done] at hr
    exact ih fuel e _ s' items (by exact ⟨ha.font, ha.ignore, ha.saved, ha.savedIgnore, ha.shown, ha.resources, ha.fonts, ha.xobjs, ha.done⟩) hr
  | save _ ih =>
    intro fuel e s s' items ha hr
    obtain ⟨s1, i1, i2, h1, h2, h3, rfl⟩ := runWith_cons hr
    rw [exec_save] at h1
    cases h1
    simp only [ha.done, finish] at h2
    cases h2
    rw [List.nil_append]
    refine ih fuel e _ s' i2 ?_ h3
    refine ⟨ha.font, ha.ignore, ?_, ?_, ha.shown, ha.resources, ha.fonts, ha.xobjs, rfl⟩
    · simp only [List.map_cons, ha.saved, ha.font]
    · intro e he
      rcases List.mem_cons.1 he with rfl | he
      · exact ha.ignore
      · exact ha.savedIgnore e he
  | restore _ ih =>
    intro fuel e s s' items ha hr
    obtain ⟨s1, i1, i2, h1, h2, h3, rfl⟩ := runWith_cons hr
    rw [exec_restore] at h1
    have hsv := ha.saved
    have hsi := ha.savedIgnore
    cases hg : s.gstack with
    | nil => rw [hg] at hsv; cases hsv
    | cons x rest =>
      obtain ⟨m, tx, g⟩ := x
      simp only [opRestore, hg] at h1
      cases h1
      simp only [ha.done, finish] at h2
      cases h2
      rw [List.nil_append]
      rw [hg] at hsv hsi
      simp only [List.map_cons, List.cons.injEq] at hsv
      exact ih fuel e _ s' i2 (by exact ⟨hsv.1, hsi _ (List.mem_cons_self ..), hsv.2, fun e he => hsi e (List.mem_cons_of_mem _ he), ha.shown, ha.resources, ha.fonts,
        ha.xobjs, rfl⟩) h3
  | restoreNone _ ih =>
    intro fuel e s s' items ha hr
    obtain ⟨s1, i1, i2, h1, h2, h3, rfl⟩ := runWith_cons hr
    rw [exec_restore] at h1
    have hsv := ha.saved
    cases hg : s.gstack with
    | cons x rest => rw [hg] at hsv; cases hsv
    | nil =>
      simp only [opRestore, hg] at h1
      cases h1
      simp only [ha.done, finish] at h2
      cases h2
      rw [List.nil_append]
      exact ih fuel e _ s' i2 (agrees_of_view ha rfl) h3
  | beginText _ ih =>
    intro fuel e s s' items ha hr
    obtain ⟨s1, i1, i2, h1, h2, h3, rfl⟩ := runWith_op (as := []) (n := asc "BT") (by simp) rfl ha.done hr
    simp only [opBegin] at h1
    split at h1
    · cases h1
    · cases h1
      simp only [ha.done, finish, newLine] at h2
      cases h2
      rw [List.nil_append]
      exact ih fuel e _ s' i2 (by exact ⟨ha.font, ha.ignore, ha.saved, ha.savedIgnore, by simp [blockText, textItem], ha.resources, ha.fonts, ha.xobjs, rfl⟩) h3
  | @endText _ _ _ _ u _ _ _ ih =>
    intro fuel e s s' items ha hr
    obtain ⟨s1, i1, i2, h1, h2, h3, rfl⟩ := runWith_op (as := []) (n := asc "ET") (by simp) rfl ha.done hr
    have hb := ha.shown
    cases hblk : s.block with
    | none => rw [hblk] at hb; cases hb
    | some b =>
      rw [hblk] at hb
      simp only [Option.map_some, Option.some.injEq] at hb
      simp only [opEnd, hblk] at h1
      cases h1
      simp only [ha.done, finish, List.nil_append] at h2
      cases h2
      rw [textItems_append, ih fuel e { s with done := [], block := none } s' i2 ⟨ha.font, ha.ignore, ha.saved, ha.savedIgnore, rfl, ha.resources, ha.fonts, ha.xobjs, rfl⟩ h3]
      rw [← hb]
      simp [textItems, blockText]
  | endNone _ ih =>
    intro fuel e s s' items ha hr
    obtain ⟨s1, i1, i2, h1, h2, h3, rfl⟩ := runWith_op (as := []) (n := asc "ET") (by simp) rfl ha.done hr
    have hb := ha.shown
    cases hblk : s.block with
    | some b => rw [hblk] at hb; cases hb
    | none =>
      simp only [opEnd, hblk] at h1
      cases h1
      simp only [ha.done, finish, List.nil_append] at h2
      cases h2
      rw [textItems_append, ih fuel e { s with done := [], block := none } s' i2 ⟨ha.font, ha.ignore, ha.saved, ha.savedIgnore, rfl, ha.resources, ha.fonts, ha.xobjs, rfl⟩ h3]
      simp [textItems, textItem]
  | @selectFont _ _ _ _ _ n size f _ _ hz hf _ ih =>
    intro fuel e s s' items ha hr
    obtain ⟨s1, i1, i2, h1, h2, h3, rfl⟩ := runWith_op (as := [.name n, size]) (n := asc "Tf") (by simpa using ⟨name_operand n, hz⟩) rfl ha.done hr
    simp only [opFont, Obj.key, ha.fonts n f hf] at h1
    cases h1
    simp only [ha.done, finish] at h2
    cases h2
    rw [List.nil_append]
    exact ih fuel e _ s' i2 (by exact ⟨rfl, ha.ignore, ha.saved, ha.savedIgnore, ha.shown, ha.resources, ha.fonts, ha.xobjs, rfl⟩) h3
  | @showString _ _ f _ u str v _ _ hv _ ih =>
    intro fuel e s s' items ha hr
    obtain ⟨s1, i1, i2, h1, h2, h3, rfl⟩ := runWith_op (as := [.str str]) (n := asc "Tj") (by simpa using str_operand str) rfl ha.done hr
    obtain ⟨hb, hs1⟩ := showText_shows (s := s) ha.font ha.shown (by rw [ha.ignore]; exact stringText_array hv) h1
    have hv' : view { s1 with block := s.block } = view s := by rw [hs1]; rfl
    have hd : s1.done = [] := by have := congrArg St.done hs1; simpa [ha.done] using this
    rw [hd] at h2
    simp only [finish] at h2
    cases h2
    rw [List.nil_append]
    have hag := agrees_of_view ha hv'
    exact ih fuel e _ s' i2 (by exact ⟨hag.font, hag.ignore, hag.saved, hag.savedIgnore, hb, hag.resources, hag.fonts, hag.xobjs, rfl⟩) h3
  | @showArray _ _ f _ u l v _ _ hv _ ih =>
    intro fuel e s s' items ha hr
    obtain ⟨s1, i1, i2, h1, h2, h3, rfl⟩ := runWith_op (as := [.arr l]) (n := asc "TJ") (by simpa using arr_operand l) rfl ha.done hr
    have h1 : showText l s = .ok s1 := by
      simp only [opShowArray, elements] at h1
      split at h1
      · cases h1
      · rename_i hh
        cases hh
        exact h1
      · cases h1
    obtain ⟨hb, hs1⟩ := showText_shows (s := s) ha.font ha.shown (by rw [ha.ignore]; exact hv) h1
    have hv' : view { s1 with block := s.block } = view s := by rw [hs1]; rfl
    have hd : s1.done = [] := by have := congrArg St.done hs1; simpa [ha.done] using this
    rw [hd] at h2
    simp only [finish] at h2
    cases h2
    rw [List.nil_append]
    have hag := agrees_of_view ha hv'
    exact ih fuel e _ s' i2 (by exact ⟨hag.font, hag.ignore, hag.saved, hag.savedIgnore, hb, hag.resources, hag.fonts, hag.xobjs, rfl⟩) h3
  | @nextLineShow _ _ f _ u str v _ _ hv _ ih =>
    intro fuel e s s' items ha hr
    obtain ⟨s1, i1, i2, h1, h2, h3, rfl⟩ := runWith_op (as := [.str str]) (n := asc "'") (by simpa using str_operand str) rfl ha.done hr
    obtain ⟨hb, hs1⟩ := showText_shows (s := nextLine s) ha.font ha.shown (by rw [show (nextLine s).text.ignoreBad = _ from ha.ignore]; exact stringText_array hv) h1
    have hv' : view { s1 with block := s.block } = view s := by
      have : ({ s1 with block := s.block } : St) = { s1 with block := (nextLine s).block } := rfl
      rw [this, hs1]; rfl
    have hd : s1.done = [] := by have := congrArg St.done hs1; simpa [nextLine, newLine, ha.done] using this
    rw [hd] at h2
    simp only [finish] at h2
    cases h2
    rw [List.nil_append]
    have hag := agrees_of_view ha hv'
    exact ih fuel e _ s' i2 (by exact ⟨hag.font, hag.ignore, hag.saved, hag.savedIgnore, hb, hag.resources, hag.fonts, hag.xobjs, rfl⟩) h3
  | @spacedShow _ _ f _ u str v w c _ _ hw hc hv _ ih =>
    intro fuel e s s' items ha hr
    obtain ⟨s1, i1, i2, h1, h2, h3, rfl⟩ := runWith_op (as := [w, c, .str str]) (n := asc "\"") (by simpa using ⟨hw, hc, str_operand str⟩) rfl ha.done hr
    simp only [opDoubleQuote] at h1
    obtain ⟨hb, hs1⟩ := showText_shows (s := { s with text := { s.text with wordspace := w, charspace := c } }) ha.font ha.shown
      (by rw [show (({ s with text := { s.text with wordspace := w, charspace := c } } : St)).text.ignoreBad = _ from ha.ignore]; exact stringText_array hv) h1
    have hv' : view { s1 with block := s.block } = view s := by rw [hs1]; rfl
    have hd : s1.done = [] := by have := congrArg St.done hs1; simpa [ha.done] using this
    rw [hd] at h2
    simp only [finish] at h2
    cases h2
    rw [List.nil_append]
    have hag := agrees_of_view ha hv'
    exact ih fuel e _ s' i2 (by exact ⟨hag.font, hag.ignore, hag.saved, hag.savedIgnore, hb, hag.resources, hag.fonts, hag.xobjs, rfl⟩) h3
  | @form _ _ _ n d raw res' v _ _ hx hform hres _ _ ihf ih =>
    intro fuel e s s' items ha hr
    obtain ⟨s1, i1, i2, h1, h2, h3, rfl⟩ := runWith_op (as := [.name n]) (n := asc "Do") (by simpa using name_operand n) rfl ha.done hr
    obtain ⟨r, hr1, hr2⟩ := ha.xobjs n _ hx
    simp only [opXObject, Obj.key, hr1, Resolver.streamValue, hr2] at h1
    unfold IsForm at hform
    rw [if_pos hform] at h1
    split at h1
    · cases h1
    · rename_i i hi
      cases h1
      simp only [formItem, bind, Except.bind] at hi
      split at hi
      · cases hi
      · split at hi
        · cases hi
        · split at hi
          · cases hi
          · rename_i rs hrs
            have hrs : rs = res' := by
              rw [ha.resources] at hrs
              simp only [formResources] at hrs
              cases hres with
              | own h1 h2 h3 =>
                simp only [h1, h2, if_true, Resolver.dictValue, h3] at hrs
                cases hrs; rfl
              | inherited h1 =>
                simp only [h1] at hrs
                unfold formResources.copyOf at hrs
                split at hrs <;> cases hrs <;> rfl
            subst hrs
            split at hi
            · cases hi
            · cases hi
              simp only [ha.done, List.nil_append, finish] at h2
              split at h2
              · cases h2
              · rename_i s2 hp
                split at h2
                · cases h2
                · rename_i its hits
                  cases h2
                  rw [textItems_append, ih fuel e _ s' i2 (agrees_of_view ha rfl) h3]
                  congr 1
                  simp only [textItems, textItem, List.nil_append, List.append_nil]
                  cases fuel with
                  | zero => simp only [run] at hits; cases hits
                  | succ fuel =>
                    simp only [run] at hits
                    have hag := agrees_start hp
                    generalize hR : runWith E (fun st s => (run E fuel st s).1) (E.content [.stream d raw]).1 (E.content [.stream d raw]).2 { s2 with graphics := s.graphics } = R at hits
                    obtain ⟨⟨j1, j2⟩, j3⟩ := R
                    simp only [Prod.mk.injEq] at hits
                    obtain ⟨rfl, rfl⟩ := hits
                    exact ihf fuel _ _ _ _ (by exact ⟨hag.font, hag.ignore, hag.saved, hag.savedIgnore, hag.shown, hag.resources, hag.fonts, hag.xobjs, hag.done⟩) hR
  | @xobject _ _ _ n d raw _ _ hx hform _ ih =>
    intro fuel e s s' items ha hr
    obtain ⟨s1, i1, i2, h1, h2, h3, rfl⟩ := runWith_op (as := [.name n]) (n := asc "Do") (by simpa using name_operand n) rfl ha.done hr
    obtain ⟨r, hr1, hr2⟩ := ha.xobjs n _ hx
    simp only [opXObject, Obj.key, hr1, Resolver.streamValue, hr2] at h1
    unfold IsForm at hform
    rw [if_neg hform] at h1
    split at h1
    · cases h1
      simp only [ha.done, List.nil_append, finish] at h2
      cases h2
      rw [textItems_append, ih fuel e _ s' i2 (agrees_of_view ha rfl) h3]
      simp [textItems, textItem]
    · cases h1
      simp only [ha.done, finish] at h2
      cases h2
      rw [List.nil_append]
      exact ih fuel e _ s' i2 (agrees_of_view ha rfl) h3
  | @other _ _ _ n _ _ hn hc _ ih =>
    intro fuel e s s' items ha hr
    obtain ⟨s1, i1, i2, h1, h2, h3, rfl⟩ := runWith_cons hr
    obtain ⟨hv, is, hd, hnf, ht⟩ := exec_quiet hn hc h1
    rw [ha.done, List.nil_append] at hd
    rw [hd, finish_plain E _ _ _ hnf] at h2
    cases h2
    rw [textItems_append, ht, List.nil_append]
    exact ih fuel e _ s' i2 (agrees_of_view ha hv) h3

/-- **C88.** Whatever a page draws, moves or sets, and however deeply forms are nested: if the interpreter gets through the content of the page, the
page shows exactly the text that its operators show, in the order of the content. -/
theorem text_extracted (E : Env1) (ctm : Mat) (res : Obj) (ignoreBad : Bool) (streams : List Obj) (t : Text)
    (ht : ProgramShows E ignoreBad res Pen.start (E.content streams).1 t) (fuel : Nat) (s s' : St) (items : List Item)
    (hs : prepState E ctm res ignoreBad = .ok s) (hr : run E fuel streams s = ((items, none), s')) (num : Nat) (w h : ℚ) :
    Spec.PageShows ⟨num, w, h, items⟩ t := by
  rw [pageShows_iff]
  cases fuel with
  | zero => simp only [run] at hr; cases hr
  | succ fuel =>
    simp only [run] at hr
    exact (program_shows ht fuel _ s s' items (agrees_start hs) hr).symm

/-! ### Examples -/

/-- A font that does not know the code 66. -/
def gapFont : Font := { demoFont with toUnichr := fun c => if c = 66 then .error .unicodeNotDefined else .ok [c.toNat] }

/-- The resources of the example: a font and a form without resources. -/
def extractRes : Obj := .dict [(nm "Font", .dict [(nm "F1", .dict [])]), (nm "XObject", .dict [(nm "X1",
  .stream [(nm "Subtype", .name (asc "Form")), (nm "BBox", .arr [.int 0, .int 0, .int 1, .int 3])] [1])])]

/-- A page that shows `A`, saves the state, draws a line, shows a form, and shows an array of strings. -/
def extractPage : List Obj :=
  [.name (asc "F1"), .int 10, operator "Tf", operator "BT", .int 2, operator "Tc", .str (asc "A"), operator "Tj", operator "q", operator "ET",
   .int 0, .int 0, operator "m", .int 1, .int 3, operator "l", operator "S", .name (asc "X1"), operator "Do", operator "Q",
   operator "BT", operator "foo", .arr [.str (asc "CD"), .int (-100), .str (asc "E")], operator "TJ", operator "ET"]

/-- The content of the form, for a string. -/
def extractForm (s : String) : List Obj :=
  [.name (asc "F1"), .int 5, operator "Tf", operator "BT", .str (asc s), operator "'", operator "ET"]

/-- An environment: a stream with data has the content of the form. -/
def extractEnv (form : String) : Env1 where
  R := noRefs
  getFont _ _ := .ok gapFont
  content l := match l with
    | [.stream _ [1]] => (extractForm form, none)
    | _ => (extractPage, none)

/-- The text of a run. -/
def extracted (E : Env1) (res : Obj) (ig : Bool) (streams : List Obj) : Option Text × Option PyErr :=
  match prepState E Mat.identity res ig with
  | .ok s => (some (textItems (run E 5 streams s).1.1), (run E 5 streams s).1.2)
  | .error e => (none, some e)

theorem extract_font (form : String) : FontNamed (extractEnv form) extractRes (asc "F1") gapFont :=
  ⟨.dict [], [], ⟨_, _, rfl, by decide, .given rfl rfl, by decide, rfl⟩, rfl, rfl⟩

theorem gap_shows (ig : Bool) (s : Bytes) (h : 66 ∉ s) : StringText gapFont ig s (s.map fun c => c.toNat) := by
  refine ⟨s.map fun c => (c.toNat : Int), s.map fun c => [c.toNat], rfl, ?_, ?_⟩
  · induction s with
    | nil => exact .nil
    | cons c s ih =>
      simp only [List.mem_cons, not_or] at h
      refine .cons (.known ?_) (ih h.2)
      simp only [gapFont]
      rw [if_neg]
      · rfl
      · intro e
        have : c.toNat = 66 := by omega
        exact h.1 (UInt8.toNat_inj.1 this).symm
  · induction s with
    | nil => rfl
    | cons c s ih => simp only [List.map_cons, List.flatten_cons, List.singleton_append]; congr 1; exact ih (fun hm => h (List.mem_cons_of_mem _ hm))

/-- The hypotheses of `text_extracted` can be met: by a page with a form. -/
theorem extract_page : ProgramShows (extractEnv "xy") false extractRes Pen.start ((extractEnv "xy").content []).1 (pstr "AxyCDE") := by
  have op : ∀ {ig res pen o os t}, Operand o → ProgramShows (extractEnv "xy") ig res pen os t → ProgramShows (extractEnv "xy") ig res pen (o :: os) t := .operand
  have other : ∀ {ig res pen os t} (n : Bytes), (.kw n ∉ Spec.textOperators ∧ ∀ c ∈ n, c ≠ 95) → ProgramShows (extractEnv "xy") ig res pen os t →
    ProgramShows (extractEnv "xy") ig res pen (.kw n :: os) t := fun n h => .other h.1 h.2
  have int : ∀ n, Operand (.int n) := fun n _ h => by cases h
  have hF := extract_font "xy"
  have hA := gap_shows false (asc "A") (by decide)
  have hxy := gap_shows false (asc "xy") (by decide)
  have hCD := gap_shows false (asc "CD") (by decide)
  have hE := gap_shows false (asc "E") (by decide)
  show ProgramShows _ _ _ _ extractPage ((asc "A").map (fun c => c.toNat) ++ ((asc "xy").map (fun c => c.toNat) ++
    (((asc "CD").map (fun c => c.toNat) ++ ((asc "E").map (fun c => c.toNat) ++ [])) ++ [])))
  refine .selectFont (int _) hF (.beginText (op (int 2) (other (asc "Tc") (by decide) (.showString hA (.save (.endText ?_))))))
  refine op (int 0) (op (int 0) (other (asc "m") (by decide) (op (int 1) (op (int 3) (other (asc "l") (by decide) (other (asc "S") (by decide) ?_))))))
  refine .form (d := [(nm "Subtype", .name (asc "Form")), (nm "BBox", .arr [.int 0, .int 0, .int 1, .int 3])]) (raw := [1])
    ⟨_, ⟨_, _, rfl, by decide, .given rfl rfl, by decide, rfl⟩, rfl⟩ ⟨rfl, rfl⟩ (.inherited rfl) ?_ ?_
  · show ProgramShows _ _ _ _ (extractForm "xy") ([] ++ (asc "xy").map (fun c => c.toNat) ++ [])
    exact .selectFont (int _) hF (.beginText (.nextLineShow hxy (.endText .done)))
  · refine .restore (.beginText (other (asc "foo") (by decide) (.showArray (.string hCD (.number rfl (.string hE .nil))) (.endText .done))))

example : extracted (extractEnv "xy") extractRes false [] = (some (pstr "AxyCDE"), none) := by decide +kernel

/-- A string without characters raises an exception: nothing after it is extracted. -/
theorem empty_string_counterexample (R : Resolver) (s : St) (f : Font) (b : TextBlock) (str : Bytes) (hf : s.text.font = some f) (hb : s.block = some b)
    (hd : f.decode str = .ok []) (hp : ∃ p, showPar f s.tmatrix s.text = .ok p) : execs R [.str str, operator "Tj"] s = .error .indexError := by
  refine (exec_op R s [.str str] "Tj" opShow (by simpa using str_operand str) rfl).trans ?_
  obtain ⟨p, hp⟩ := hp
  simp only [opShow, showText, hf, hb, showSeq, hp, renderSeq, renderObj, Obj.num?, hd, renderCids, mkCharBlock, bind, Except.bind]

/-- An unknown code in a form raises an exception even if bad characters are to be ignored; on the page itself it is left out. -/
theorem form_ignore_counterexample :
    extracted (extractEnv "xBy") extractRes true [] = (some (pstr "A"), some .unicodeNotDefined) ∧
    extracted { extractEnv "xBy" with content := fun _ => (extractForm "xBy", none) } extractRes true [] = (some (pstr "xy"), none) := by
  decide +kernel

/-- The operator `_q`, which does not exist, is taken for `'`. -/
theorem underscore_counterexample (R : Resolver) (s : St) (o : Obj) : execs R [o, .kw (asc "_q")] s = execs R [o, operator "'"] s := rfl

end Pdf
