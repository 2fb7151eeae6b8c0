import Verif.Spec.Provenance
import Verif.Props.Extract
import Verif.Props.Layout
import Verif.Model.Outputs
/-! C97: nothing on a delivered page is made up. -/

namespace Pdf
open Spec

/-! ### Showing strings -/

theorem toText_shows {f : Font} {ig : Bool} {c : Int} {t : Text} (e : toText f ig c = .ok t) : CodeShows f ig c t := by
  unfold toText at e
  split at e
  · cases e; exact .known (by assumption)
  · rename_i x hx
    split at e
    · rename_i h
      cases e
      exact .unknown (by rw [hx, h.1]) h.2
    · cases e

theorem renderCids_shows {f : Font} {p : ShowPar} {ig : Bool} {cids : List Int} {r r' : Render} (e : renderCids f p ig cids r = .ok r') :
    ∃ ts, List.Forall₂ (CodeShows f ig) cids ts ∧ r'.chars.map Prod.fst = r.chars.map Prod.fst ++ ts := by
  induction cids generalizing r with
  | nil => simp only [renderCids] at e; cases e; exact ⟨[], .nil, by simp⟩
  | cons c cids ih =>
    simp only [renderCids] at e
    split at e
    · cases e
    · rename_i r1 h1
      obtain ⟨ts, h2, h3⟩ := ih e
      simp only [renderCid, bind, Except.bind] at h1
      split at h1
      · cases h1
      · rename_i u hu
        split at h1
        · cases h1
        · cases h1
          exact ⟨u :: ts, .cons (toText_shows hu) h2, by rw [h3]; simp⟩

theorem renderSeq_shows {f : Font} {p : ShowPar} {ig : Bool} {l : List Obj} {r r' : Render} (e : renderSeq f p ig l r = .ok r') :
    ∃ strings codes ts, (∀ s ∈ strings, .str s ∈ l) ∧ List.Forall₂ (fun s cs => f.decode s = .ok cs) strings codes ∧
      List.Forall₂ (CodeShows f ig) codes.flatten ts ∧ r'.chars.map Prod.fst = r.chars.map Prod.fst ++ ts := by
  induction l generalizing r with
  | nil => simp only [renderSeq] at e; cases e; exact ⟨[], [], [], by simp, .nil, .nil, by simp⟩
  | cons o os ih =>
    simp only [renderSeq] at e
    split at e
    · cases e
    · rename_i r1 h1
      obtain ⟨strings, codes, ts, g1, g2, g3, g4⟩ := ih e
      simp only [renderObj] at h1
      split at h1
      · cases h1
        exact ⟨strings, codes, ts, fun s hs => List.mem_cons_of_mem _ (g1 s hs), g2, g3, g4⟩
      · split at h1
        · split at h1
          · cases h1
          · rename_i s _ _ cs hd
            obtain ⟨us, k1, k2⟩ := renderCids_shows h1
            refine ⟨s :: strings, cs :: codes, us ++ ts, ?_, .cons hd g2, ?_, ?_⟩
            · intro x hx
              rcases List.mem_cons.1 hx with rfl | hx
              · exact List.mem_cons_self ..
              · exact List.mem_cons_of_mem _ (g1 x hx)
            · rw [List.flatten_cons]; exact List.rel_append k1 g3
            · rw [g4, k2, List.append_assoc]
        · cases h1

theorem Spec.CodeShows.weaken {f : Font} {ig ig' : Bool} {c : Int} {t : PyStr} (h : CodeShows f ig c t) (hi : ig = true → ig' = true) : CodeShows f ig' c t := by
  cases h with
  | known h => exact .known h
  | unknown h h' => exact .unknown h (hi h')

/-! ### The invariant -/

/-- Everything in the state comes from the document. -/
structure StFrom (E : Env1) (ig : Bool) (st : List Obj) (res : Obj) (s : St) : Prop where
  own : s.resources = res
  xobjs : ∀ e ∈ s.xobjmap, InResources E.R res "XObject" e.2
  font : ∀ f, s.text.font = some f → FontFrom E res f
  ignore : s.text.ignoreBad = true → ig = true
  saved : ∀ e ∈ s.gstack, (∀ f, e.2.1.font = some f → FontFrom E res f) ∧ (e.2.1.ignoreBad = true → ig = true)
  fonts : ∀ e ∈ s.fontmap, FontFrom E res e.2
  args : ∀ a ∈ s.args, InContent E st a
  block : ∀ b, s.block = some b → ItemFrom E ig st res (.text b)
  done : ∀ i ∈ s.done, ItemFrom E ig st res i

/-- The part of the state that the invariant is about. -/
def traced (s : St) : Obj × List (Key × Obj) × Option Font × Bool × List (Mat × TState × GState) × List (Key × Font) × List Obj × Option TextBlock × List Item :=
  (s.resources, s.xobjmap, s.text.font, s.text.ignoreBad, s.gstack, s.fontmap, s.args, s.block, s.done)

theorem stFrom_of {E : Env1} {ig : Bool} {st : List Obj} {res : Obj} {s s' : St} (h : StFrom E ig st res s) (hv : traced s' = traced s) : StFrom E ig st res s' := by
  simp only [traced, Prod.mk.injEq] at hv
  obtain ⟨k1, k2, h1, h2, h3, h4, h5, h6, h7⟩ := hv
  exact ⟨by rw [k1]; exact h.own, by rw [k2]; exact h.xobjs, by rw [h1]; exact h.font, by rw [h2]; exact h.ignore, by rw [h3]; exact h.saved, by rw [h4]; exact h.fonts, by rw [h5]; exact h.args,
    by rw [h6]; exact h.block, by rw [h7]; exact h.done⟩

theorem text_inv {E : Env1} {ig : Bool} {st : List Obj} {res : Obj} {b : TextBlock} (h : ItemFrom E ig st res (.text b)) : (∀ cb ∈ b.blocks, BlockFrom E ig st res cb) ∧ (b.bbox = none ↔ b.blocks = []) := by
  cases h with
  | text h1 h2 => exact ⟨h1, h2⟩

theorem showText_from {E : Env1} {ig : Bool} {st : List Obj} {res : Obj} {seq : List Obj} {s s' : St} (hs : StFrom E ig st res s) (hq : ∀ x, .str x ∈ seq → StringFrom E st x)
    (h : showText seq s = .ok s') : StFrom E ig st res s' := by
  simp only [showText] at h
  split at h
  · cases h
  · cases h
  · rename_i font blk hfont hblk
    split at h
    · cases h
    · rename_i b line hshow
      cases h
      refine ⟨hs.own, hs.xobjs, hs.font, hs.ignore, hs.saved, hs.fonts, hs.args, ?_, hs.done⟩
      rintro t ⟨⟩
      obtain ⟨k1, k2⟩ := text_inv (hs.block blk hblk)
      simp only [showSeq, bind, Except.bind] at hshow
      split at hshow
      · cases hshow
      · split at hshow
        · cases hshow
        · rename_i r hr
          split at hshow
          · cases hshow
          · rename_i b' hb
            cases hshow
            refine .text ?_ (by simp)
            intro cb hcb
            rcases List.mem_append.1 hcb with hcb | hcb
            · exact k1 cb hcb
            · obtain rfl := List.mem_singleton.1 hcb
              obtain ⟨strings, codes, ts, g1, g2, g3, g4⟩ := renderSeq_shows hr
              cases hc : r.chars with
              | nil => rw [hc] at hb; cases hb
              | cons c cs =>
                rw [hc] at hb g4
                simp only [mkCharBlock] at hb
                cases hb
                refine ⟨hs.font _ hfont, by simp, strings, codes, fun x hx => hq x (g1 x hx), g2, ?_⟩
                have : ((c :: cs).map (mkChar font)).map Prod.fst = ts := by
                  rw [List.map_map]
                  rw [← List.nil_append ts, ← List.map_nil, ← g4]
                  exact List.map_congr_left fun _ _ => rfl
                rw [this]
                exact g3.imp fun _ _ h => h.weaken hs.ignore

theorem snoc_from {E : Env1} {ig : Bool} {st : List Obj} {res : Obj} {l : List Item} {i : Item} (h : ∀ j ∈ l, ItemFrom E ig st res j) (hi : ItemFrom E ig st res i) : ∀ j ∈ l ++ [i], ItemFrom E ig st res j := by
  intro j hj
  rcases List.mem_append.1 hj with hj | hj
  · exact h j hj
  · obtain rfl := List.mem_singleton.1 hj; exact hi

theorem makeCurve_from {E : Env1} {ig : Bool} {st : List Obj} {res : Obj} {m : Mat} {g : GState} {eo : Bool} {ps : List CurvePath} {i : Item} (h : makeCurve m g eo ps = .ok i) : ItemFrom E ig st res i := by
  unfold makeCurve at h
  split at h
  · split at h <;> cases h
    exact .curve
  · split at h
    · split at h <;> cases h
      · exact .curve
      · exact .none
    · cases h
    · cases h
  · split at h <;> cases h
    exact .curve

theorem popArgs_mem (n : Int) (l : List Obj) : (∀ a ∈ (popArgs n l).1, a ∈ l) ∧ ∀ a ∈ (popArgs n l).2, a ∈ l := by
  unfold popArgs
  split
  · exact ⟨by simp, fun _ h => h⟩
  · split
    · exact ⟨fun _ h => List.mem_of_mem_drop h, fun _ h => List.mem_of_mem_take h⟩
    · exact ⟨fun _ h => List.mem_of_mem_drop h, fun _ h => List.mem_of_mem_take h⟩

/-- The operator keeps the invariant. -/
def Traces (E : Env1) (ig : Bool) (st : List Obj) (res : Obj) (f : Op) : Prop := ∀ as s s', (∀ a ∈ as, InContent E st a) → f as s = .ok s' → StFrom E ig st res s → StFrom E ig st res s'

theorem elements_str {E : Env1} {st : List Obj} {x : Obj} {l : List Obj} (hx : InContent E st x) (h : elements x = .ok l) : ∀ s, .str s ∈ l → StringFrom E st s := by
  intro s hs
  cases x with
  | arr l' => cases h; exact .inr ⟨_, hx, hs⟩
  | str b => cases h; simp at hs
  | _ => cases h

theorem formItem_uses {R : Resolver} {d : List (Key × Obj)} {raw : Bytes} {res : Obj} {m : Mat} {i : Item} (h : formItem R d raw res m = .ok i) :
    ∃ b res', i = .xobj (.stream d raw) b res' m [] ∧ FormUses R d res res' := by
  have copy : ∀ {r r' : Obj}, formResources.copyOf r = .ok r' → r' = r := by
    intro r r' h
    cases r <;> simp only [formResources.copyOf] at h <;> cases h <;> rfl
  simp only [formItem, bind, Except.bind] at h
  split at h
  · cases h
  split at h
  · cases h
  split at h
  · cases h
  rename_i res' hr
  split at h
  · cases h
  cases h
  refine ⟨_, res', rfl, ?_⟩
  simp only [formResources] at hr
  split at hr
  · rename_i o ho
    split at hr
    · rename_i ht
      split at hr
      · rename_i r hr'
        cases hr
        exact .own ho ht hr'
      · cases hr
    · rename_i ht
      rw [copy hr]
      refine .inherited fun o' h' => ?_
      rw [ho] at h'
      cases h'
      simpa using ht
  · rename_i ho
    rw [copy hr]
    exact .inherited (by simp [ho])

theorem commands_from (E : Env1) (ig : Bool) (st : List Obj) (res : Obj) : ∀ e ∈ commands E.R, Traces E ig st res e.2.2 := by
  have l : ∀ {P : (Bytes × Nat × Op) → Prop}, (∀ e ∈ commands E.R, P e) ↔ List.Forall P (commands E.R) := fun {P} => (List.forall_iff_forall_mem).symm
  rw [l]
  have key : ∀ f : Op, OpKeeps f traced → Traces E ig st res f := fun f hf as s s' _ h hs => stFrom_of hs (hf as s s' h)
  have hpaint : ∀ eo, Traces E ig st res (opPaint eo) := by
    intro eo as s s' _ h hs
    simp only [opPaint] at h
    split at h
    · cases h
    · cases h
      exact ⟨hs.own, hs.xobjs, hs.font, hs.ignore, hs.saved, hs.fonts, hs.args, hs.block, snoc_from hs.done (makeCurve_from (by assumption))⟩
  have hclose : ∀ eo, Traces E ig st res (opClosePaint eo) := by
    intro eo as s s' ha h hs
    exact hpaint eo as _ s' ha h (stFrom_of (s' := { s with curves := s.curves ++ [⟨.closePath, []⟩] }) hs rfl)
  have hcustom : ∀ g1 g2, Traces E ig st res (opCustom g1 g2) := by
    intro g1 g2 as s s' _ h hs
    simp only [opCustom] at h
    split at h
    · cases h
    · split at h <;> cases h
      · exact ⟨hs.own, hs.xobjs, hs.font, hs.ignore, hs.saved, hs.fonts, fun a ha => hs.args a ((popArgs_mem _ _).2 a ha), hs.block, hs.done⟩
      · exact ⟨hs.own, hs.xobjs, hs.font, hs.ignore, hs.saved, hs.fonts, fun a ha => hs.args a ((popArgs_mem _ _).2 a ha), hs.block, hs.done⟩
  have hsetT : ∀ f : TState → Obj → TState, (∀ t x, (f t x).font = t.font ∧ (f t x).ignoreBad = t.ignoreBad) → Traces E ig st res (setT f) := by
    intro f hf as s s' _ h hs
    simp only [setT] at h
    split at h
    · cases h
      exact stFrom_of hs (by simp only [traced, (hf _ _).1, (hf _ _).2])
    · cases h
  simp only [commands, List.Forall]
  refine ⟨?_, ?_, ?_, ?_, ?_, ?_, ?_, ?_, ?_, ?_, ?_, ?_, ?_, ?_, ?_, ?_, ?_, ?_, ?_, ?_, ?_, ?_, ?_, ?_, ?_, ?_, ?_, ?_, ?_, ?_, ?_, ?_, ?_, ?_, ?_, ?_,
    ?_, ?_, ?_, ?_, ?_, ?_, ?_, ?_, ?_, ?_, ?_, ?_, ?_, ?_, ?_, ?_, ?_, ?_, ?_, ?_, ?_, ?_⟩
  all_goals first
    | exact hpaint _ | exact hclose _ | exact hcustom _ _
    | exact key _ (keeps_concat (fun _ _ => rfl)) | exact key _ (keeps_setG (fun _ _ => rfl) _) | exact key _ (keeps_dash (fun _ _ => rfl))
    | exact key _ (keeps_space (fun _ _ => rfl) _) | exact key _ (keeps_color (fun _ _ => rfl) _ _) | exact key _ (keeps_rgb (fun _ _ => rfl) _)
    | exact key _ (keeps_curve (fun _ _ => rfl) _) | exact key _ (keeps_rect (fun _ _ => rfl))
    | exact key _ (keeps_endPath (fun _ _ => rfl))
    | exact hsetT _ (fun _ _ => ⟨rfl, rfl⟩)
    | skip
  · intro as s s' _ h hs
    cases h
    refine ⟨hs.own, hs.xobjs, hs.font, hs.ignore, ?_, hs.fonts, hs.args, hs.block, hs.done⟩
    intro e he
    rcases List.mem_cons.1 he with rfl | he
    · exact ⟨hs.font, hs.ignore⟩
    · exact hs.saved e he
  · intro as s s' _ h hs
    simp only [opRestore] at h
    split at h
    · cases h; exact hs
    · rename_i m t g rest hg
      cases h
      have hsv := hs.saved
      rw [hg] at hsv
      obtain ⟨h1, h2⟩ := hsv _ (List.mem_cons_self ..)
      exact ⟨hs.own, hs.xobjs, h1, h2, fun e he => hsv e (List.mem_cons_of_mem _ he), hs.fonts, hs.args, hs.block, hs.done⟩
  · intro as s s' _ h hs
    simp only [opBegin] at h
    split at h
    · cases h
    · cases h
      refine ⟨hs.own, hs.xobjs, hs.font, hs.ignore, hs.saved, hs.fonts, hs.args, ?_, hs.done⟩
      rintro t ⟨⟩
      exact .text (by simp) (by simp)
  · intro as s s' _ h hs
    simp only [opEnd] at h
    cases h
    refine ⟨hs.own, hs.xobjs, hs.font, hs.ignore, hs.saved, hs.fonts, hs.args, by simp, snoc_from hs.done ?_⟩
    cases hb : s.block with
    | none => exact .none
    | some t => exact hs.block t hb
  · intro as s s' _ h hs
    simp only [opLeading] at h
    split at h
    · split at h <;> cases h
      exact stFrom_of hs rfl
    · cases h
  · intro as s s' _ h hs
    simp only [opFont] at h
    split at h
    · split at h
      · cases h
      · split at h <;> cases h
        rename_i f hf
        refine ⟨hs.own, hs.xobjs, ?_, hs.ignore, hs.saved, hs.fonts, hs.args, hs.block, hs.done⟩
        rintro g ⟨⟩
        exact hs.fonts _ (dictGet_mem_list hf)
    · cases h
  · intro as s s' _ h hs
    simp only [opMove, bind, Except.bind] at h
    split at h
    · split at h
      · cases h
      · split at h <;> cases h
        exact stFrom_of hs rfl
    · cases h
  · intro as s s' _ h hs
    simp only [opMoveLead, bind, Except.bind] at h
    split at h
    · split at h
      · cases h
      · split at h <;> cases h
        exact stFrom_of hs rfl
    · cases h
  · intro as s s' _ h hs
    simp only [opMatrix, bind, Except.bind] at h
    split at h <;> cases h
    exact stFrom_of hs rfl
  · intro as s s' _ h hs
    cases h
    exact stFrom_of hs rfl
  · intro as s s' ha h hs
    simp only [opShowArray] at h
    split at h
    · split at h
      · cases h
      · rename_i x _ _ _ _ _ _ he
        exact showText_from hs (elements_str (ha _ (by simp)) he) h
      · cases h
    · cases h
  · intro as s s' ha h hs
    exact showText_from hs (fun x hx => .inl (ha _ hx)) h
  · intro as s s' ha h hs
    exact showText_from (s := nextLine s) (stFrom_of hs rfl) (fun x hx => .inl (ha _ hx)) h
  · intro as s s' ha h hs
    simp only [opDoubleQuote] at h
    split at h
    · refine showText_from ?_ (fun x hx => .inl (ha _ ?_)) h
      · exact stFrom_of hs rfl
      · rw [List.mem_singleton] at hx; simp [hx]
    · cases h
  · intro as s s' ha h hs
    simp only [opImage] at h
    split at h
    · split at h <;> cases h
      · exact ⟨hs.own, hs.xobjs, hs.font, hs.ignore, hs.saved, hs.fonts, hs.args, hs.block, snoc_from hs.done (.inlineImage (ha _ (by simp)))⟩
      · exact hs
    · cases h; exact hs
    · cases h
  · intro as s s' ha h hs
    simp only [opXObject] at h
    split at h
    · split at h
      · cases h
      · split at h
        · cases h
        · split at h
          · cases h
          · rename_i _ hx _ d raw hv
            have hx := hs.xobjs _ (dictGet_mem_list hx)
            split at h
            · rename_i hsub
              split at h
              · cases h
              · rename_i i hi
                cases h
                refine ⟨hs.own, hs.xobjs, hs.font, hs.ignore, hs.saved, hs.fonts, hs.args, hs.block, snoc_from hs.done ?_⟩
                obtain ⟨b, res', hi, hu⟩ := formItem_uses hi
                subst hi
                rw [hs.own] at hu
                exact .form hx hv hsub.1 hu (by simp)
            · split at h
              · rename_i hsub
                cases h
                exact ⟨hs.own, hs.xobjs, hs.font, hs.ignore, hs.saved, hs.fonts, hs.args, hs.block, snoc_from hs.done (.image hx hv hsub.1)⟩
              · cases h; exact hs
    · cases h

theorem exec_from {E : Env1} {ig : Bool} {st : List Obj} {res : Obj} {s s' : St} {o : Obj} (hs : StFrom E ig st res s) (ho : InContent E st o) (h : exec E.R s o = .ok s') : StFrom E ig st res s' := by
  have push : StFrom E ig st res { s with args := s.args ++ [o] } := by
    refine ⟨hs.own, hs.xobjs, hs.font, hs.ignore, hs.saved, hs.fonts, ?_, hs.block, hs.done⟩
    intro a ha
    rcases List.mem_append.1 ha with ha | ha
    · exact hs.args a ha
    · obtain rfl := List.mem_singleton.1 ha; exact ho
  cases o with
  | kw n =>
    simp only [exec] at h
    split at h
    · cases h; exact hs
    · rename_i k f hf
      have hk := commands_from E ig st res _ (dictGet_mem_list hf)
      split at h
      · exact hk _ _ _ (by simp) h hs
      · split at h
        · refine hk _ { s with args := (popArgs k s.args).2 } _ (fun a ha => hs.args a ((popArgs_mem _ _).1 a ha)) h ?_
          exact ⟨hs.own, hs.xobjs, hs.font, hs.ignore, hs.saved, hs.fonts, fun a ha => hs.args a ((popArgs_mem _ _).2 a ha), hs.block, hs.done⟩
        · cases h
  | _ => cases h; exact push

theorem dictSet_mem {κ β : Type} [DecidableEq κ] {d : List (κ × β)} {k : κ} {v : β} {e : κ × β} (h : e ∈ dictSet d k v) : e ∈ d ∨ e = (k, v) := by
  induction d with
  | nil => simp only [dictSet, List.mem_singleton] at h; exact .inr h
  | cons a d ih =>
    obtain ⟨a, b⟩ := a
    simp only [dictSet] at h
    split at h
    · rcases List.mem_cons.1 h with rfl | h
      · rename_i hk; subst hk; exact .inr rfl
      · exact .inl (List.mem_cons_of_mem _ h)
    · rcases List.mem_cons.1 h with rfl | h
      · exact .inl (List.mem_cons_self ..)
      · exact (ih h).imp (List.mem_cons_of_mem _) id

theorem initFonts_from {E : Env1} {ig : Bool} {st : List Obj} {res : Obj} (d : List (Key × Obj)) {s s' : St} (hs : StFrom E ig st res s)
    (hd : ∀ e ∈ d, InResources E.R res "Font" e.2) (h : initFonts E d s = .ok s') : StFrom E ig st res s' := by
  induction d generalizing s with
  | nil => cases h; exact hs
  | cons e d ih =>
    obtain ⟨k, v⟩ := e
    simp only [initFonts] at h
    split at h
    · cases h
    · rename_i spec hspec
      split at h
      · cases h
      · rename_i f hf
        refine ih ?_ (fun e he => hd e (List.mem_cons_of_mem _ he)) h
        refine ⟨hs.own, hs.xobjs, hs.font, hs.ignore, hs.saved, ?_, hs.args, hs.block, hs.done⟩
        intro e he
        rcases dictSet_mem he with he | rfl
        · exact hs.fonts e he
        · exact ⟨v, spec, hd _ (List.mem_cons_self ..), hspec, hf⟩

theorem initSpaces_from {E : Env1} {ig : Bool} {st : List Obj} {res : Obj} (d : List (Key × Obj)) {s s' : St} (hs : StFrom E ig st res s) (h : initSpaces E.R d s = .ok s') :
    StFrom E ig st res s' := by
  obtain ⟨m, rfl⟩ := initSpaces_frame h
  exact stFrom_of hs rfl

theorem xobjs_mem {R : Resolver} {res : Obj} (d : List (Key × Obj)) (hd : ∀ e ∈ d, InResources R res "XObject" e.2) : ∀ m : List (Key × Obj),
    (∀ e ∈ m, InResources R res "XObject" e.2) → ∀ e ∈ d.foldl (fun m e => dictSet m e.1 e.2) m, InResources R res "XObject" e.2 := by
  induction d with
  | nil => exact fun m h => h
  | cons x d ih =>
    intro m h
    refine ih (fun e he => hd e (List.mem_cons_of_mem _ he)) _ ?_
    intro e he
    rcases dictSet_mem he with he | rfl
    · exact h e he
    · exact hd x (List.mem_cons_self ..)

theorem initEntry_from {E : Env1} {ig : Bool} {st : List Obj} {res : Obj} {d : List (Key × Obj)} (hd : E.R.dictValue res = .ok d) (k : Key) (v : Obj) (hk : (k, v) ∈ d)
    {s s' : St} (hs : StFrom E ig st res s) (h : initEntry E k v s = .ok s') : StFrom E ig st res s' := by
  simp only [initEntry] at h
  split at h
  · rename_i hn
    subst hn
    split at h
    · cases h
    · rename_i es hes
      exact initFonts_from _ hs (fun e he => ⟨d, v, es, e.1, hd, hk, hes, he⟩) h
  · split at h
    · split at h
      · cases h
      · exact initSpaces_from _ hs h
    · split at h
      · split at h <;> cases h
        exact hs
      · split at h
        · rename_i hn
          subst hn
          split at h
          · cases h
          · rename_i es hes
            cases h
            exact ⟨hs.own, xobjs_mem es (fun e he => ⟨d, v, es, e.1, hd, hk, hes, he⟩) _ hs.xobjs, hs.font, hs.ignore, hs.saved, hs.fonts, hs.args, hs.block, hs.done⟩
        · cases h; exact hs

theorem initEntries_from {E : Env1} {ig : Bool} {st : List Obj} {res : Obj} {d0 : List (Key × Obj)} (hd : E.R.dictValue res = .ok d0) (d : List (Key × Obj)) (hm : ∀ e ∈ d, e ∈ d0)
    {s s' : St} (hs : StFrom E ig st res s) (h : initEntries E d s = .ok s') : StFrom E ig st res s' := by
  induction d generalizing s with
  | nil => cases h; exact hs
  | cons e d ih =>
    obtain ⟨k, v⟩ := e
    simp only [initEntries] at h
    split at h
    · cases h
    · exact ih (fun e he => hm e (List.mem_cons_of_mem _ he)) (initEntry_from hd k v (hm _ (List.mem_cons_self ..)) hs (by assumption)) h

theorem prepState_from {E : Env1} {ig : Bool} (st : List Obj) (m : Mat) (res : Obj) {s : St} (h : prepState E m res ig = .ok s) : StFrom E ig st res s := by
  simp only [prepState, initResources] at h
  split at h
  · cases h
  · rename_i d hd
    refine initEntries_from hd _ (fun _ h => h) ?_ h
    exact ⟨rfl, by simp, by simp, id, by simp, by simp, by simp, by simp, by simp⟩

theorem finish_from {E : Env1} {ig : Bool} {st : List Obj} {res : Obj} {nested : List Obj → St → Gen Item}
    (hn : ∀ st res s, StFrom E false st res s → ∀ i ∈ (nested st s).1, ItemFrom E false st res i) (g : GState)
    (is : List Item) (h : ∀ i ∈ is, ItemFrom E ig st res i) : ∀ i ∈ (finish E nested g is).1, ItemFrom E ig st res i := by
  induction is with
  | nil => simp [finish]
  | cons i is ih =>
    have ih := ih fun j hj => h j (List.mem_cons_of_mem _ hj)
    have hi := h i (List.mem_cons_self ..)
    cases i with
    | xobj x b res' m cs =>
      cases hi with
      | @form _ _ _ o d data _ _ _ _ h0 h1 h2 hu hc =>
        simp only [finish]
        split
        · simp
        · rename_i s hs
          split
          · simp
          · rename_i items hit
            intro j hj
            rcases List.mem_cons.1 hj with rfl | hj
            · refine .form h0 h1 h2 hu fun c hc' => ?_
              rcases List.mem_append.1 hc' with hc' | hc'
              · exact hc c hc'
              · have := hn [.stream d data] res' { s with graphics := g } (stFrom_of (prepState_from [.stream d data] m res' hs) rfl)
                rw [hit] at this
                exact this c hc'
            · exact ih j hj
    | _ => exact fun j hj => (List.mem_cons.1 hj).elim (fun e => e ▸ hi) (ih j)

theorem runWith_from {E : Env1} {ig : Bool} {st : List Obj} {res : Obj} {nested : List Obj → St → Gen Item}
    (hn : ∀ st res s, StFrom E false st res s → ∀ i ∈ (nested st s).1, ItemFrom E false st res i) (os : List Obj)
    (ho : ∀ o ∈ os, InContent E st o) (e : Option PyErr) (s : St) (hs : StFrom E ig st res s) : ∀ i ∈ (runWith E nested os e s).1.1, ItemFrom E ig st res i := by
  induction os generalizing s with
  | nil => simp [runWith]
  | cons o os ih =>
    simp only [runWith]
    split
    · simp
    · rename_i s1 h1
      have h2 := exec_from hs (ho o (List.mem_cons_self ..)) h1
      have h3 := finish_from hn s1.graphics s1.done h2.done
      split
      · rename_i items x hx
        rw [hx] at h3
        exact h3
      · rename_i items hx
        rw [hx] at h3
        intro i hi
        rcases List.mem_append.1 hi with hi | hi
        · exact h3 i hi
        · exact ih (fun o h => ho o (List.mem_cons_of_mem _ h)) { s1 with done := [] }
            ⟨h2.own, h2.xobjs, h2.font, h2.ignore, h2.saved, h2.fonts, h2.args, h2.block, by simp⟩ i hi

/-- **C97.** Whatever the content, and also if there is an exception: the items that the interpreter yields come from the content and the resources. -/
theorem items_from (E : Env1) (fuel : Nat) (streams : List Obj) (m : Mat) (res : Obj) (ig : Bool) (s : St) (h : prepState E m res ig = .ok s) :
    ∀ i ∈ (run E fuel streams s).1.1, ItemFrom E ig streams res i := by
  have key : ∀ fuel ig streams res s, StFrom E ig streams res s → ∀ i ∈ (run E fuel streams s).1.1, ItemFrom E ig streams res i := by
    intro fuel
    induction fuel with
    | zero => simp [run]
    | succ fuel ih =>
      intro ig streams res s hs
      exact runWith_from (fun st res s hs => ih false st res s hs) _ (fun o ho => ho) _ s hs
  exact key fuel ig streams res s (prepState_from streams m res h)

theorem deliverPages_from (E : Env1) (fuel : Nat) (ig : Bool) (ps : List Page) : ∀ (num : Nat) (e : Option PyErr) (k : Nat) (p : LtPage),
    ((deliverPages E fuel ig num ps e).pages ++ (deliverPages E fuel ig num ps e).started.toList)[k]? = some p →
      ∃ q, ps[k]? = some q ∧ ∀ i ∈ p.items, ItemFrom E ig q.contents q.resources i := by
  induction ps with
  | nil => simp [deliverPages]
  | cons q ps ih =>
    intro num e k p
    simp only [deliverPages]
    split
    · intro h; simp at h
    · split
      · intro h; simp at h
      · rename_i s hs
        have h := items_from E fuel q.contents _ _ ig s hs
        split
        · rename_i items x hx
          rw [hx] at h
          intro hk
          cases k with
          | zero => simp at hk; subst hk; exact ⟨q, rfl, h⟩
          | succ k => simp at hk
        · rename_i items hx
          rw [hx] at h
          intro hk
          cases k with
          | zero => simp at hk; subst hk; exact ⟨q, rfl, h⟩
          | succ k =>
            rw [List.cons_append, List.getElem?_cons_succ] at hk
            obtain ⟨q', h1, h2⟩ := ih _ _ k p hk
            exact ⟨q', h1, h2⟩

/-- **C97**, for files: whatever the file, whether the conversion ends with an exception or not, everything on the pages that are delivered, and on the
page that was begun, comes from the content streams and the resources of the page of the document in the same place. -/
theorem delivered_from (S : Setup) (opts : Options) (fuel : Nat) (data : Bytes) (k : Nat) (p : LtPage)
    (h : ((deliver S opts fuel data).pages ++ (deliver S opts fuel data).started.toList)[k]? = some p) :
    ∃ O q, openDocument S opts.password opts.caching fuel data = .ok O ∧
      (selectPages opts.pagenos opts.maxpages (createPages (O.resolver opts.caching fuel) O.catalog O.objids fuel)).1[k]? = some q ∧
      ∀ i ∈ p.items, ItemFrom (S.env1 (O.resolver opts.caching fuel) fuel) opts.ignoreBad q.contents q.resources i := by
  revert h
  unfold deliver
  split
  · intro h; simp at h
  · rename_i O hO
    split
    · intro h; simp at h
    · intro hp
      obtain ⟨q, h1, h2⟩ := deliverPages_from _ _ _ _ _ _ k p hp
      exact ⟨O, q, hO, h1, h2⟩

/-- Where there are no strings in the content, there is no text: a text block has no char-blocks, and no box. -/
theorem no_strings_no_text {E : Env1} {ig : Bool} {st : List Obj} {res : Obj} {b : TextBlock} (h : ItemFrom E ig st res (.text b)) (hs : ∀ s, ¬ StringFrom E st s) :
    b.blocks = [] ∧ b.bbox = none := by
  obtain ⟨h1, h2⟩ := text_inv h
  suffices hb : b.blocks = [] from ⟨hb, h2.2 hb⟩
  rw [List.eq_nil_iff_forall_not_mem]
  intro cb hcb
  obtain ⟨_, hne, strings, codes, g1, g2, g3⟩ := h1 cb hcb
  cases strings with
  | cons s _ => exact hs s (g1 s (by simp))
  | nil =>
    cases g2
    cases hc : cb.chars with
    | nil => exact hne hc
    | cons c cs => rw [hc] at g3; cases g3

/-- Where there are no external objects in the resources, there are no forms. -/
theorem no_xobjects_no_forms {E : Env1} {ig : Bool} {st : List Obj} {res x res' : Obj} {b : Bbox} {m : Mat} {children : List Item}
    (h : ItemFrom E ig st res (.xobj x b res' m children)) : ∃ o, InResources E.R res "XObject" o := by
  cases h with
  | form h _ _ _ _ => exact ⟨_, h⟩

end Pdf
