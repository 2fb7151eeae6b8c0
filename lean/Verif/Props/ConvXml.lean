import Verif.Props.ConvJson
import Verif.Props.Xml
/-! Property C78: the XML converter. -/

namespace Pdf

open Spec (Shows PageShows XmlEnv XmlBlock XmlItem XmlName XmlValue WritesAttrs WritesXml XmlEvent XmlContent textIn chars Tag starts ReadsTag ItemTags PageTags boxAttrs colorAttrs blockTags curveTags)

theorem textIn_append (tag : PyStr) (st : Bool) (a b : List XmlEvent) :
    textIn tag st (a ++ b) = ((textIn tag (textIn tag st a).1 b).1, (textIn tag st a).2 ++ (textIn tag (textIn tag st a).1 b).2) := by
  induction a generalizing st with
  | nil => simp [textIn]
  | cons e a ih =>
    cases e with
    | start t l => simp only [List.cons_append, textIn]; exact ih _
    | stop t => simp only [List.cons_append, textIn]; exact ih _
    | char c => cases st <;> simp [textIn, ih]

theorem textIn_outside (tag : PyStr) (s : PyStr) : textIn tag false (chars s) = (false, []) := by
  induction s with
  | nil => rfl
  | cons c s ih => show textIn tag false (.char c :: chars s) = _; simp [textIn, ih]

theorem textIn_inside (tag : PyStr) (s : PyStr) : textIn tag true (chars s) = (true, s) := by
  induction s with
  | nil => rfl
  | cons c s ih => show textIn tag true (.char c :: chars s) = _; simp [textIn, ih]

theorem starts_append (a b : List XmlEvent) : starts (a ++ b) = starts a ++ starts b := by
  induction a with
  | nil => rfl
  | cons e a ih => cases e <;> simp [starts, ih]

theorem starts_chars (s : PyStr) : starts (chars s) = [] := by
  induction s with
  | nil => rfl
  | cons c s ih => show starts (.char c :: chars s) = _; simp [starts, ih]

/-- The calls make well-formed XML whose `char` elements have the text, with these tags. -/
def XOut (n : Nat) (b : XBody) (t : PyStr) (tags : List Tag) : Prop :=
  ∃ e, WritesXml n b e ∧ textIn (pstr "char") false e = (false, t) ∧ List.Forall₂ ReadsTag tags (starts e)

theorem xout_nil (n : Nat) : XOut n .nil [] [] := ⟨[], .nil, rfl, .nil⟩

theorem forall2_append {α β : Type} {R : α → β → Prop} {a b : List α} {c d : List β} (h : List.Forall₂ R a c) (h' : List.Forall₂ R b d) :
    List.Forall₂ R (a ++ b) (c ++ d) := by
  induction h with
  | nil => exact h'
  | cons h1 _ ih => exact .cons h1 ih

theorem xout_elm {n : Nat} {tag : PyStr} {attrs as exp : List (PyStr × PyStr)} {body b : XBody} {t t' : PyStr} {tags tags' : List Tag}
    (hn : XmlName tag) (ht : tag ≠ pstr "char") (ha : WritesAttrs attrs as) (hd : (as.map Prod.fst).Nodup) (hexp : attrs.Perm exp)
    (hb : XOut (n + 1) body t tags) (h : XOut n b t' tags') :
    XOut n (.cons (.elm tag attrs false false body) b) (t ++ t') ((tag, exp) :: tags ++ tags') := by
  obtain ⟨e, h1, h2, h5⟩ := hb
  obtain ⟨e', h3, h4, h6⟩ := h
  refine ⟨_, .elm hn ha hd h1 h3, ?_, ?_⟩
  · simp only [textIn_append, Spec.indentation, Spec.lineEnd, Bool.false_eq_true, if_false, textIn_outside, textIn, h2, h4, if_neg ht,
      List.nil_append, List.append_nil]
  · simp only [starts_append, Spec.indentation, Spec.lineEnd, Bool.false_eq_true, if_false, starts_chars, starts, List.nil_append, List.append_nil]
    exact forall2_append (.cons ⟨rfl, attrs, hexp, ha⟩ h5) h6

theorem xout_single {n : Nat} {tag : PyStr} {attrs as exp : List (PyStr × PyStr)} {b : XBody} {t' : PyStr} {tags' : List Tag} (hn : XmlName tag)
    (ht : tag ≠ pstr "char") (ha : WritesAttrs attrs as) (hd : (as.map Prod.fst).Nodup) (hexp : attrs.Perm exp) (h : XOut n b t' tags') :
    XOut n (.cons (.single tag attrs) b) t' ((tag, exp) :: tags') := by
  obtain ⟨e', h3, h4, h6⟩ := h
  refine ⟨_, .single hn ha hd h3, ?_, ?_⟩
  · simp only [textIn_append, Spec.indentation, Spec.lineEnd, textIn_outside, textIn, h4, if_neg ht, List.nil_append]
  · simp only [starts_append, Spec.indentation, Spec.lineEnd, starts_chars, starts, List.nil_append, List.append_nil]
    exact .cons ⟨rfl, attrs, hexp, ha⟩ h6

theorem xout_char {n : Nat} {attrs as exp : List (PyStr × PyStr)} {b : XBody} {s t' : PyStr} {tags' : List Tag}
    (hs : ∀ c ∈ s, Spec.xmlChar c = true) (ha : WritesAttrs attrs as) (hd : (as.map Prod.fst).Nodup) (hexp : attrs.Perm exp) (h : XOut n b t' tags') :
    XOut n (.cons (.elm (pstr "char") attrs true false (.cons (.text (saxEscape s) true) .nil)) b) (s ++ t') ((pstr "char", exp) :: tags') := by
  obtain ⟨e', h3, h4, h6⟩ := h
  refine ⟨_, .elm ⟨0x63, pstr "har", rfl, by decide, by decide⟩ ha hd (.raw (xml_escaped_text s hs) .nil) h3, ?_, ?_⟩
  · simp only [textIn_append, Spec.indentation, Spec.lineEnd, Bool.false_eq_true, if_false, if_true, textIn_outside, textIn_inside, textIn,
      h4, List.nil_append, List.append_nil]
  · simp only [starts_append, Spec.indentation, Spec.lineEnd, Bool.false_eq_true, if_false, if_true, starts_chars, starts, List.nil_append,
      List.append_nil]
    exact .cons ⟨rfl, attrs, hexp, ha⟩ h6

/-! ### Attributes -/

theorem writesAttrs_append {a b c d : List (PyStr × PyStr)} (h : WritesAttrs a b) (h' : WritesAttrs c d) : WritesAttrs (a ++ c) (b ++ d) := by
  induction h with
  | nil => exact h'
  | cons h1 h2 _ ih => exact .cons h1 h2 ih

theorem writesAttrs_keys {a b : List (PyStr × PyStr)} (h : WritesAttrs a b) : b.map Prod.fst = a.map Prod.fst := by
  induction h with
  | nil => rfl
  | cons _ _ _ ih => rw [List.map_cons, List.map_cons, ih]

/-- Attributes with names and values that XML can carry stand for some attributes. -/
theorem writesAttrs_exists {l : List (PyStr × PyStr)} (h : ∀ p ∈ l, XmlName p.1 ∧ ∃ v, XmlValue p.2 v) : ∃ as, WritesAttrs l as := by
  induction l with
  | nil => exact ⟨[], .nil⟩
  | cons p l ih =>
    obtain ⟨h1, v, h2⟩ := h p List.mem_cons_self
    obtain ⟨as, h3⟩ := ih (fun p hp => h p (List.mem_cons_of_mem _ hp))
    exact ⟨(p.1, v) :: as, .cons h1 h2 h3⟩

theorem xmlName_dec {n : PyStr} (h : (match n with | [] => false | c :: r => Spec.nameStart c && r.all Spec.nameChar) = true) : XmlName n := by
  cases n with
  | nil => cases h
  | cons c r =>
    rw [Bool.and_eq_true, List.all_eq_true] at h
    exact ⟨c, r, rfl, h.1, h.2⟩

/-- A condition on attributes: names, values, and no name twice. -/
def AttrsOk (l : List (PyStr × PyStr)) : Prop := (∀ p ∈ l, XmlName p.1 ∧ ∃ v, XmlValue p.2 v) ∧ (l.map Prod.fst).Nodup

theorem attrsOk_writes {l : List (PyStr × PyStr)} (h : AttrsOk l) : ∃ as, WritesAttrs l as ∧ (as.map Prod.fst).Nodup := by
  obtain ⟨as, ha⟩ := writesAttrs_exists h.1
  exact ⟨as, ha, by rw [writesAttrs_keys ha]; exact h.2⟩

theorem attrSet_ok {l : List (PyStr × PyStr)} {name value : PyStr} (h : AttrsOk l) (hn : XmlName name) (hv : ∃ v, XmlValue value v) :
    AttrsOk (attrSet l name value) := by
  unfold attrSet
  split
  · next hm =>
    refine ⟨fun p hp => ?_, ?_⟩
    · obtain ⟨q, hq, rfl⟩ := List.mem_map.1 hp
      split
      · exact ⟨(h.1 q hq).1, hv⟩
      · exact h.1 q hq
    · have : (l.map fun p => if (p.1 == name) = true then (p.1, value) else p).map Prod.fst = l.map Prod.fst := by
        rw [List.map_map]
        refine List.map_congr_left fun p _ => ?_
        simp only [Function.comp]
        split <;> rfl
      rw [this]; exact h.2
  · next hm =>
    refine ⟨fun p hp => ?_, ?_⟩
    · rcases List.mem_append.1 hp with hp | hp
      · exact h.1 p hp
      · rw [List.mem_singleton.1 hp]; exact ⟨hn, hv⟩
    · rw [List.map_append, List.nodup_append]
      refine ⟨h.2, by simp, ?_⟩
      intro a ha b hb e
      rw [List.map_singleton, List.mem_singleton] at hb
      subst hb; subst e
      obtain ⟨p, hp, e⟩ := List.mem_map.1 ha
      exact hm (List.any_eq_true.2 ⟨p, hp, by simpa using e⟩)

theorem attrs_foldl_ok {env : ConvEnv} (ds l : List (PyStr × PyStr)) (h : AttrsOk l)
    (hd : ∀ p ∈ ds, XmlName (env.attrName p.1) ∧ ∃ v, XmlValue p.2 v) : AttrsOk (ds.foldl (fun l p => attrSet l (env.attrName p.1) p.2) l) := by
  induction ds generalizing l with
  | nil => exact h
  | cons p ds ih =>
    rw [List.foldl_cons]
    exact ih _ (attrSet_ok h (hd p List.mem_cons_self).1 (hd p List.mem_cons_self).2) (fun p hp => hd p (List.mem_cons_of_mem _ hp))

/-- Fixed names and good values. -/
theorem attrsOk_of (l : List (PyStr × PyStr)) (keys : List PyStr) (hk : l.map Prod.fst = keys)
    (hkeys : (keys.all fun n => match n with | [] => false | c :: r => Spec.nameStart c && r.all Spec.nameChar) = true) (nd : keys.Nodup)
    (hv : ∀ p ∈ l, ∃ v, XmlValue p.2 v) : AttrsOk l := by
  refine ⟨fun p hp => ⟨?_, hv p hp⟩, by rw [hk]; exact nd⟩
  have : p.1 ∈ keys := by rw [← hk]; exact List.mem_map.2 ⟨p, hp, rfl⟩
  exact xmlName_dec (List.all_eq_true.1 hkeys _ this)

theorem box_values {env : ConvEnv} (henv : XmlEnv env) (b : Bbox) : ∀ p ∈ xBox env b, ∃ v, XmlValue p.2 v := by
  intro p hp
  simp only [xBox, List.mem_cons, List.not_mem_nil, or_false] at hp
  rcases hp with rfl | rfl | rfl | rfl <;> exact henv.number _

theorem none_value : ∃ v, XmlValue (pstr "None") v :=
  ⟨pstr "None", .plain (by decide) (by decide) (by decide) (by decide) (by decide) (.plain (by decide) (by decide) (by decide) (by decide) (by decide)
    (.plain (by decide) (by decide) (by decide) (by decide) (by decide) (.plain (by decide) (by decide) (by decide) (by decide) (by decide) .nil)))⟩

theorem boxOpt_values {env : ConvEnv} (henv : XmlEnv env) (b : Option Bbox) : ∀ p ∈ xBoxOpt env b, ∃ v, XmlValue p.2 v := by
  cases b with
  | some b => exact box_values henv b
  | none =>
    intro p hp
    simp only [xBoxOpt, List.mem_cons, List.not_mem_nil, or_false] at hp
    rcases hp with rfl | rfl | rfl | rfl <;> exact none_value

theorem boxOpt_keys (env : ConvEnv) (b : Option Bbox) : (xBoxOpt env b).map Prod.fst = [pstr "x0", pstr "x1", pstr "y0", pstr "y1"] := by
  cases b <;> rfl

theorem color_values {env : ConvEnv} (key : PyStr) (c : Color) (hx : Spec.XmlColor env c) : ∀ p ∈ xColor env key c, ∃ v, XmlValue p.2 v := by
  intro p hp
  unfold xColor at hp
  cases hc : c.space with
  | none => rw [hc] at hp; cases hp
  | some cs =>
    rw [hc] at hp
    simp only [List.mem_cons, List.not_mem_nil, or_false] at hp
    rcases hp with rfl | rfl
    · exact (hx _ hc).1
    · exact (hx _ hc).2

theorem xColor_keys (env : ConvEnv) (key : PyStr) (c : Color) :
    (xColor env key c).map Prod.fst = [] ∨ (xColor env key c).map Prod.fst = [key ++ pstr "-type", key ++ pstr "-values"] := by
  unfold xColor
  cases c.space with
  | none => exact .inl rfl
  | some cs => exact .inr rfl

theorem box_perm (env : ConvEnv) (b : Bbox) : (xBox env b).Perm (boxAttrs env b) :=
  .cons _ (.swap ..)

theorem xColor_eq (env : ConvEnv) (key : PyStr) (c : Color) : xColor env key c = colorAttrs env key c := by
  unfold xColor colorAttrs
  cases c.space <;> rfl

theorem attrs_foldl_fresh {env : ConvEnv} (ds l : List (PyStr × PyStr)) (nd : (ds.map fun p => env.attrName p.1).Nodup)
    (hd : ∀ p ∈ ds, env.attrName p.1 ∉ l.map Prod.fst) :
    ds.foldl (fun l p => attrSet l (env.attrName p.1) p.2) l = l ++ ds.map fun p => (env.attrName p.1, p.2) := by
  induction ds generalizing l with
  | nil => simp
  | cons p ds ih =>
    have hp := hd p List.mem_cons_self
    have e : attrSet l (env.attrName p.1) p.2 = l ++ [(env.attrName p.1, p.2)] := by
      unfold attrSet
      rw [if_neg]
      intro h
      obtain ⟨q, hq, e⟩ := List.any_eq_true.1 h
      exact hp (List.mem_map.2 ⟨q, hq, by simpa using e⟩)
    rw [List.map_cons, List.nodup_cons] at nd
    rw [List.foldl_cons, e, ih _ nd.2]
    · simp
    · intro q hq
      rw [List.map_append]
      intro hm
      rcases List.mem_append.1 hm with hm | hm
      · exact hd q (List.mem_cons_of_mem _ hq) hm
      · rw [List.map_singleton, List.mem_singleton] at hm
        exact nd.1 (List.mem_map.2 ⟨q, hq, hm⟩)

theorem charBlock_base {env : ConvEnv} (henv : XmlEnv env) (b : CharBlock) (hx : Spec.XmlColor env b.color) :
    AttrsOk ([(pstr "size", env.fmt b.size)] ++ xBox env b.bbox ++ xColor env (pstr "color") b.color) ∧
    (([(pstr "size", env.fmt b.size)] ++ xBox env b.bbox ++ xColor env (pstr "color") b.color).map Prod.fst ⊆
      [pstr "size", pstr "x0", pstr "x1", pstr "y0", pstr "y1", pstr "color-type", pstr "color-values"]) := by
  have hv : ∀ p ∈ [(pstr "size", env.fmt b.size)] ++ xBox env b.bbox ++ xColor env (pstr "color") b.color, ∃ v, XmlValue p.2 v := by
    intro p hp
    rcases List.mem_append.1 hp with hp | hp
    · rcases List.mem_append.1 hp with hp | hp
      · rw [List.mem_singleton.1 hp]; exact henv.number _
      · exact box_values henv _ p hp
    · exact color_values _ _ hx p hp
  have hk : ([(pstr "size", env.fmt b.size)] ++ xBox env b.bbox ++ xColor env (pstr "color") b.color).map Prod.fst =
      [pstr "size", pstr "x0", pstr "x1", pstr "y0", pstr "y1"] ++ (xColor env (pstr "color") b.color).map Prod.fst := by
    rw [List.map_append]; rfl
  rcases xColor_keys env (pstr "color") b.color with h | h <;> rw [h] at hk <;>
    exact ⟨attrsOk_of _ _ hk (by decide) (by decide) hv, by rw [hk]; decide⟩

theorem charBlock_attrs {env : ConvEnv} (henv : XmlEnv env) (b : CharBlock) (hb : XmlBlock env b) : AttrsOk (xCharBlockAttrs env b) := by
  unfold xCharBlockAttrs
  exact attrs_foldl_ok _ _ (charBlock_base henv b hb.color).1 fun p hp => hb.descriptor p (List.mem_filter.1 hp).1

theorem charBlock_exp {env : ConvEnv} (henv : XmlEnv env) (b : CharBlock) (hb : XmlBlock env b) :
    ∃ exp, (xCharBlockAttrs env b).Perm exp ∧ blockTags env b = (pstr "char-block", exp) :: b.chars.map fun c => (pstr "char", boxAttrs env c.2.1) := by
  refine ⟨_, ?_, rfl⟩
  unfold xCharBlockAttrs
  rw [attrs_foldl_fresh]
  · rw [xColor_eq]
    refine .append (.append ?_ (.refl _)) ?_
    · exact .cons _ (box_perm env b.bbox)
    · refine .of_eq (congrArg _ (List.filter_congr fun p _ => ?_))
      letI := Classical.propDecidable (Spec.leftOut p.1)
      by_cases h : keepKey p.1 = true
      · rw [h]; exact (decide_eq_true ((keepKey_iff _).1 h)).symm
      · rw [Bool.not_eq_true _ |>.mp h]
        symm
        exact decide_eq_false fun hh => h ((keepKey_iff _).2 hh)
  · exact List.Nodup.sublist (List.Sublist.map _ List.filter_sublist) hb.names
  · intro p hp hm
    exact hb.fresh p (List.mem_filter.1 hp).1 ((charBlock_base henv b hb.color).2 hm)

theorem curve_attrs {env : ConvEnv} (henv : XmlEnv env) (c : Curve) (hs : Spec.XmlColor env c.stroke) (hf : Spec.XmlColor env c.fill) :
    AttrsOk (xBox env c.bbox ++ xColor env (pstr "stroke") c.stroke ++ xColor env (pstr "fill") c.fill) := by
  have hv : ∀ p ∈ xBox env c.bbox ++ xColor env (pstr "stroke") c.stroke ++ xColor env (pstr "fill") c.fill, ∃ v, XmlValue p.2 v := by
    intro p hp
    rcases List.mem_append.1 hp with hp | hp
    · rcases List.mem_append.1 hp with hp | hp
      · exact box_values henv _ p hp
      · exact color_values _ _ hs p hp
    · exact color_values _ _ hf p hp
  have hk : (xBox env c.bbox ++ xColor env (pstr "stroke") c.stroke ++ xColor env (pstr "fill") c.fill).map Prod.fst =
      [pstr "x0", pstr "x1", pstr "y0", pstr "y1"] ++ (xColor env (pstr "stroke") c.stroke).map Prod.fst ++
        (xColor env (pstr "fill") c.fill).map Prod.fst := by
    rw [List.map_append, List.map_append]; rfl
  rcases xColor_keys env (pstr "stroke") c.stroke with h | h <;> rcases xColor_keys env (pstr "fill") c.fill with h' | h' <;>
    rw [h, h'] at hk <;> exact attrsOk_of _ _ hk (by decide) (by decide) hv

/-! ### Items -/

theorem boxOk {env : ConvEnv} (henv : XmlEnv env) (b : Bbox) : AttrsOk (xBox env b) :=
  attrsOk_of _ [pstr "x0", pstr "x1", pstr "y0", pstr "y1"] rfl (by decide) (by decide) (box_values henv b)

theorem chars_xout {env : ConvEnv} (henv : XmlEnv env) (n : Nat) (l : List (Text × Bbox × ℚ)) (h : ∀ c ∈ l, ∀ x ∈ c.1, Spec.xmlChar x = true) :
    XOut n (XBody.ofList (l.map (xChar env))) (l.flatMap fun c => c.1) (l.map fun c => (pstr "char", boxAttrs env c.2.1)) := by
  induction l with
  | nil => exact xout_nil n
  | cons c l ih =>
    obtain ⟨as, ha, hd⟩ := attrsOk_writes (boxOk henv c.2.1)
    exact xout_char (h c List.mem_cons_self) ha hd (box_perm env _) (ih (fun c hc => h c (List.mem_cons_of_mem _ hc)))

theorem blocks_xout {env : ConvEnv} (henv : XmlEnv env) (n : Nat) (l : List CharBlock) (h : ∀ cb ∈ l, XmlBlock env cb) :
    XOut n (XBody.ofList (l.map (xCharBlock env))) (l.flatMap CharBlock.text) (l.flatMap (blockTags env)) := by
  induction l with
  | nil => exact xout_nil n
  | cons b l ih =>
    have hb := h b List.mem_cons_self
    obtain ⟨as, ha, hd⟩ := attrsOk_writes (charBlock_attrs henv b hb)
    obtain ⟨exp, he, et⟩ := charBlock_exp henv b hb
    rw [List.flatMap_cons (f := blockTags env), et]
    exact xout_elm (xmlName_dec (by decide)) (by decide) ha hd he (chars_xout henv _ _ hb.text) (ih (fun c hc => h c (List.mem_cons_of_mem _ hc)))

theorem points_xout {env : ConvEnv} (henv : XmlEnv env) (n : Nat) (l : List (Option ℚ × Option ℚ)) :
    XOut n (XBody.ofList (l.map fun q => .single (pstr "point") [(pstr "x", q.1.elim (pstr "None") env.fmt), (pstr "y", q.2.elim (pstr "None") env.fmt)])) []
      (l.map fun q => (pstr "point", [(pstr "x", Spec.coordinate env q.1), (pstr "y", Spec.coordinate env q.2)])) := by
  induction l with
  | nil => exact xout_nil n
  | cons q l ih =>
    have hv : ∀ o : Option ℚ, ∃ v, XmlValue (o.elim (pstr "None") env.fmt) v := by
      intro o
      cases o with
      | none => exact none_value
      | some x => exact henv.number x
    have he : ∀ o : Option ℚ, o.elim (pstr "None") env.fmt = Spec.coordinate env o := by intro o; cases o <;> rfl
    obtain ⟨as, ha, hd⟩ := attrsOk_writes (attrsOk_of [(pstr "x", q.1.elim (pstr "None") env.fmt), (pstr "y", q.2.elim (pstr "None") env.fmt)]
      [pstr "x", pstr "y"] rfl
      (by decide) (by decide) (by
        intro p hp
        simp only [List.mem_cons, List.not_mem_nil, or_false] at hp
        rcases hp with rfl | rfl <;> exact hv _))
    exact xout_single (xmlName_dec (by decide)) (by decide) ha hd (by rw [he, he]) ih

theorem plain_value (s : PyStr) (h : (s.all fun c => Spec.xmlChar c && decide (0x20 ≤ c) && decide (c ≠ 0x3c) && decide (c ≠ 0x26) && decide (c ≠ 0x22)) = true) :
    XmlValue s s := by
  induction s with
  | nil => exact .nil
  | cons c s ih =>
    rw [List.all_cons, Bool.and_eq_true] at h
    have h1 := h.1
    simp only [Bool.and_eq_true, decide_eq_true_eq] at h1
    exact .plain h1.1.1.1.1 h1.1.1.1.2 h1.1.1.2 h1.1.2 h1.2 (ih h.2)

theorem paths_xout {env : ConvEnv} (henv : XmlEnv env) (n : Nat) (l : List CurvePath) :
    XOut n (XBody.ofList (l.map fun p => .elm (pstr "path") [(pstr "type", curveMethodName p.method)] false false (XBody.ofList (p.points.map fun q =>
        .single (pstr "point") [(pstr "x", q.1.elim (pstr "None") env.fmt), (pstr "y", q.2.elim (pstr "None") env.fmt)])))) []
      (l.flatMap fun p => (pstr "path", [(pstr "type", pstr (Spec.methodText p.method))]) ::
        p.points.map fun q => (pstr "point", [(pstr "x", Spec.coordinate env q.1), (pstr "y", Spec.coordinate env q.2)])) := by
  induction l with
  | nil => exact xout_nil n
  | cons p l ih =>
    have hv : ∃ v, XmlValue (curveMethodName p.method) v := ⟨_, plain_value _ (by cases p.method <;> decide)⟩
    have he : curveMethodName p.method = pstr (Spec.methodText p.method) := by cases p.method <;> rfl
    obtain ⟨as, ha, hd⟩ := attrsOk_writes (attrsOk_of [(pstr "type", curveMethodName p.method)] [pstr "type"] rfl (by decide) (by decide) (by
      intro p hp; rw [List.mem_singleton.1 hp]; exact hv))
    have := xout_elm (xmlName_dec (n := pstr "path") (by decide)) (by decide) ha hd (exp := [(pstr "type", pstr (Spec.methodText p.method))]) (by rw [he])
      (points_xout henv (n + 1) p.points) ih
    exact this

theorem writesXml_append {n : Nat} {a b : XBody} {e e' : List XmlEvent} (h : WritesXml n a e) (h' : WritesXml n b e') :
    WritesXml n (a.append b) (e ++ e') := by
  induction h generalizing b e' with
  | nil => exact h'
  | raw h1 _ ih => rw [List.append_assoc]; exact .raw h1 (ih h')
  | text h1 _ ih =>
    have := WritesXml.text h1 (ih h')
    simpa only [List.append_assoc, XBody.append] using this
  | elm h1 h2 h3 h4 _ _ ih =>
    rename_i n0 tag0 attrs0 as0 bare0 nol0 _ _ _ _ _ _
    have := WritesXml.elm (bare := bare0) (nol := nol0) h1 h2 h3 h4 (ih h')
    simpa only [List.append_assoc, XBody.append] using this
  | single h1 h2 h3 _ ih =>
    have := WritesXml.single h1 h2 h3 (ih h')
    simpa only [List.append_assoc, XBody.append] using this

theorem xout_append {n : Nat} {a b : XBody} {t t' : PyStr} {tags tags' : List Tag} (h : XOut n a t tags) (h' : XOut n b t' tags') :
    XOut n (a.append b) (t ++ t') (tags ++ tags') := by
  obtain ⟨e, h1, h2, h5⟩ := h
  obtain ⟨e', h3, h4, h6⟩ := h'
  refine ⟨e ++ e', writesXml_append h1 h3, ?_, ?_⟩
  · rw [textIn_append, h2, h4]
  · rw [starts_append]; exact forall2_append h5 h6

theorem items_xout {env : ConvEnv} (n : Nat) (l : List Item) (h : ∀ i ∈ l, ∃ tags, ItemTags env i tags ∧ XOut n (xItem env i) (textItem i) tags) :
    ∃ ts, List.Forall₂ (ItemTags env) l ts ∧ XOut n (xItems env l) (textItems l) ts.flatten := by
  induction l with
  | nil => exact ⟨[], .nil, by rw [xItems, textItems]; exact xout_nil n⟩
  | cons i l ih =>
    obtain ⟨tags, h1, h2⟩ := h i List.mem_cons_self
    obtain ⟨ts, h3, h4⟩ := ih (fun i hi => h i (List.mem_cons_of_mem _ hi))
    exact ⟨tags :: ts, .cons h1 h3, by rw [xItems, textItems]; exact xout_append h2 h4⟩

theorem curve_exp (env : ConvEnv) (c : Curve) :
    (xBox env c.bbox ++ xColor env (pstr "stroke") c.stroke ++ xColor env (pstr "fill") c.fill).Perm
      (boxAttrs env c.bbox ++ colorAttrs env (pstr "stroke") c.stroke ++ colorAttrs env (pstr "fill") c.fill) := by
  rw [xColor_eq, xColor_eq]
  exact .append (.append (box_perm env _) (.refl _)) (.refl _)

theorem curve_xout {env : ConvEnv} (henv : XmlEnv env) (c : Curve) (hs : Spec.XmlColor env c.stroke) (hf : Spec.XmlColor env c.fill) (n : Nat) : XOut n (.cons (xCurve env c) .nil) [] (curveTags env c) := by
  obtain ⟨as, ha, hd⟩ := attrsOk_writes (curve_attrs henv c hs hf)
  unfold xCurve curveTags
  dsimp only
  cases c.kind with
  | rect => exact xout_single (xmlName_dec (by decide)) (by decide) ha hd (curve_exp env c) (xout_nil n)
  | line => exact xout_single (xmlName_dec (by decide)) (by decide) ha hd (curve_exp env c) (xout_nil n)
  | horizontal => exact xout_single (xmlName_dec (by decide)) (by decide) ha hd (curve_exp env c) (xout_nil n)
  | vertical => exact xout_single (xmlName_dec (by decide)) (by decide) ha hd (curve_exp env c) (xout_nil n)
  | curve =>
    have := xout_elm (xmlName_dec (n := pstr "curve") (by decide)) (by decide) ha hd (curve_exp env c) (paths_xout henv (n + 1) c.paths) (xout_nil n)
    rw [List.append_nil (_ :: _)] at this
    exact this

theorem item_xout {env : ConvEnv} (henv : XmlEnv env) (i : Item) (hi : XmlItem env i) (n : Nat) :
    ∃ tags, ItemTags env i tags ∧ XOut n (xItem env i) (textItem i) tags := by
  match i, hi with
  | .none, .none =>
    have : textItem .none = [] := by simp [textItem]
    exact ⟨[], .none, by rw [xItem, this]; exact xout_nil n⟩
  | .curve c, .curve hs hf =>
    have : textItem (.curve c) = [] := by simp [textItem]
    exact ⟨_, .curve, by rw [xItem, this]; exact curve_xout henv c hs hf n⟩
  | .image d data b, .image him =>
    have : textItem (.image d data b) = [] := by simp [textItem]
    obtain ⟨as, ha, hd⟩ := attrsOk_writes (attrsOk_of ([(pstr "src", env.imageName d data)] ++ xBox env b)
      [pstr "src", pstr "x0", pstr "x1", pstr "y0", pstr "y1"] rfl (by decide) (by decide) (by
      intro p hp
      rcases List.mem_append.1 hp with hp | hp
      · rw [List.mem_singleton.1 hp]; exact him
      · exact box_values henv _ p hp))
    refine ⟨_, .image, ?_⟩
    rw [xItem, this]
    exact xout_single (xmlName_dec (by decide)) (by decide) ha hd (.cons _ (box_perm env b)) (xout_nil n)
  | .text b, .text hb =>
    have : textItem (.text b) = b.blocks.flatMap CharBlock.text ++ [] := by rw [textItem, List.append_nil]; rfl
    obtain ⟨as, ha, hd⟩ := attrsOk_writes (attrsOk_of (xBoxOpt env b.bbox) _ (boxOpt_keys env _) (by decide) (by decide) (boxOpt_values henv _))
    refine ⟨_, .text, ?_⟩
    rw [xItem, this]
    have hp : (xBoxOpt env b.bbox).Perm (b.bbox.elim ([pstr "x0", pstr "y0", pstr "x1", pstr "y1"].map fun n => (n, pstr "None")) (boxAttrs env)) := by
      cases b.bbox with
      | some bb => exact box_perm env bb
      | none => exact .cons _ (.swap ..)
    have := xout_elm (xmlName_dec (n := pstr "text-block") (by decide)) (by decide) ha hd hp (blocks_xout henv (n + 1) _ hb) (xout_nil n)
    rw [List.append_nil (_ :: _)] at this
    exact this
  | .xobj s b r m children, .xobj hch =>
    have : textItem (.xobj s b r m children) = textItems children ++ [] := by rw [textItem, List.append_nil]
    obtain ⟨as, ha, hd⟩ := attrsOk_writes (boxOk henv b)
    obtain ⟨ts, h1, h2⟩ := items_xout (n + 1) children (fun i hi => item_xout henv i (hch i hi) (n + 1))
    refine ⟨_, .xobj h1, ?_⟩
    rw [xItem, this]
    have := xout_elm (xmlName_dec (n := pstr "xobject") (by decide)) (by decide) ha hd (box_perm env b) h2 (xout_nil n)
    rw [List.append_nil (_ :: _)] at this
    exact this
termination_by i

theorem numText_value (n : Nat) : ∃ v, XmlValue (numText n) v := by
  refine ⟨_, plain_value _ ?_⟩
  rw [List.all_eq_true]
  intro c hc
  obtain ⟨d, hd, rfl⟩ := List.mem_map.1 hc
  have := (decimal_facts n).2.1 d hd
  generalize d.toNat = x at this
  have hx : ∀ x, x < 58 → 48 ≤ x → (Spec.xmlChar x && decide (0x20 ≤ x) && decide (x ≠ 0x3c) && decide (x ≠ 0x26) && decide (x ≠ 0x22)) = true := by
    decide
  exact hx x (by omega) this.1

theorem pages_xout {env : ConvEnv} (henv : XmlEnv env) (n : Nat) (pages : List LtPage) (hp : ∀ p ∈ pages, ∀ i ∈ p.items, XmlItem env i) :
    ∃ ts, List.Forall₂ (PageTags env) pages ts ∧ XOut n (XBody.ofList (pages.map (xPage env))) (pages.flatMap fun p => textItems p.items) ts.flatten := by
  induction pages with
  | nil => exact ⟨[], .nil, xout_nil n⟩
  | cons p l ih =>
    obtain ⟨as, ha, hd⟩ := attrsOk_writes (attrsOk_of [(pstr "id", numText p.num), (pstr "width", env.fmt p.width), (pstr "height", env.fmt p.height)]
      [pstr "id", pstr "width", pstr "height"] rfl
      (by decide) (by decide) (by
        intro q hq
        simp only [List.mem_cons, List.not_mem_nil, or_false] at hq
        rcases hq with rfl | rfl | rfl
        · exact numText_value _
        · exact henv.number _
        · exact henv.number _))
    obtain ⟨ts, h1, h2⟩ := items_xout (n + 1) p.items (fun i hi => item_xout henv i (hp p List.mem_cons_self i hi) (n + 1))
    obtain ⟨us, h3, h4⟩ := ih (fun p h => hp p (List.mem_cons_of_mem _ h))
    refine ⟨_ :: us, .cons ⟨ts, h1, rfl⟩ h3, ?_⟩
    exact xout_elm (xmlName_dec (by decide)) (by decide) ha hd (.refl _) h2 h4

/-- **C78 (partial).** After its first line, the XML file is well-formed and can be read in one way only. It has a start tag for the document,
for every page, item, char-block, character, path and point, in the order of the items, with their numbers, boxes, colours and font
descriptors as attributes; and the text of its `char` elements is the text that the pages show: the same text as the text converter
writes. -/
theorem xml_document_partial (env : ConvEnv) (henv : XmlEnv env) (codec : PyStr) (pages : List LtPage)
    (hp : ∀ p ∈ pages, ∀ i ∈ p.items, XmlItem env i) (ts : List PyStr) (hts : List.Forall₂ PageShows pages ts) :
    ∃ body ev, xmlFile env codec pages = xHeader codec ++ body ∧ XmlContent body ev ∧ (∀ ev', XmlContent body ev' → ev' = ev) ∧
      (textIn (pstr "char") false ev).2 = ts.flatten ∧
      ∃ tags, List.Forall₂ (PageTags env) pages tags ∧ List.Forall₂ ReadsTag ((pstr "pages", []) :: tags.flatten) (starts ev) := by
  obtain ⟨tags, ht, hx⟩ := pages_xout henv 1 pages hp
  have hx := xout_elm (n := 0) (tag := pstr "pages") (xmlName_dec (by decide)) (by decide) .nil (by simp) (.refl _) hx (xout_nil 0)
  obtain ⟨ev, h1, h2, h3⟩ := hx
  have w := xml_writer_partial _ _ _ h1
  rw [List.append_nil (_ :: _)] at h3
  refine ⟨_, ev, rfl, w, fun ev' h' => xml_unique _ _ _ h' w, ?_, tags, ht, h3⟩
  rw [h2, List.append_nil]
  dsimp only
  rw [flatMap_flatten]
  congr 1
  exact (forall2_map_eq (fun p _ t h => (pageShows_iff p t).1 h) hts).symm

/-! ### Examples -/

theorem sampleEnv_xml : XmlEnv (sampleEnv (pstr "FontName")) :=
  ⟨fun _ => ⟨_, plain_value (pstr "0") (by decide)⟩⟩

theorem sampleEnv_color (c : Color) : Spec.XmlColor (sampleEnv (pstr "FontName")) c :=
  fun _ _ => ⟨⟨_, plain_value (pstr "DeviceGray") (by decide)⟩, ⟨_, plain_value (pstr "0") (by decide)⟩⟩

theorem samplePage_xml (texts : List PyStr) (h : ∀ t ∈ texts, ∀ c ∈ t, Spec.xmlChar c = true) :
    ∀ i ∈ (samplePage texts).items, XmlItem (sampleEnv (pstr "FontName")) i := by
  intro i hi
  simp only [samplePage, List.mem_cons, List.not_mem_nil, or_false] at hi
  rcases hi with rfl | rfl
  · refine .xobj fun i hi => ?_
    rw [List.mem_singleton.1 hi]
    refine .text fun cb hcb => ?_
    rw [List.mem_singleton.1 hcb]
    refine ⟨fun c hc => ?_, sampleEnv_color _, fun p hp => ?_, by simp [sampleEnv], fun p hp => ?_⟩
    · obtain ⟨t, ht, rfl⟩ := List.mem_map.1 hc
      exact h t ht
    · rw [List.mem_singleton.1 hp]; exact ⟨xmlName_dec (n := pstr "FontName") (by decide), _, plain_value (pstr "Arial") (by decide)⟩
    · rw [List.mem_singleton.1 hp]
      show pstr "FontName" ∉ _
      decide
  · exact .none

example : ∃ body ev, xmlFile (sampleEnv (pstr "FontName")) (pstr "utf-8") [samplePage [pstr "<", pstr "b"]] = xHeader (pstr "utf-8") ++ body ∧
    XmlContent body ev ∧ (textIn (pstr "char") false ev).2 = pstr "<b" :=
  let ⟨body, ev, h1, h2, _, h4, _⟩ := xml_document_partial _ sampleEnv_xml (pstr "utf-8") [samplePage [pstr "<", pstr "b"]] (by
    intro p hp; rw [List.mem_singleton.1 hp]; exact samplePage_xml _ (by decide)) [pstr "<b"] (.cons ((pageShows_iff _ _).2 (by decide +kernel)) .nil)
  ⟨body, ev, h1, h2, by rw [h4]; decide⟩

/-- A font descriptor can replace the size of a char-block: two pages with different sizes make the same file. -/
theorem xml_hidden_size_counterexample :
    xCharBlockAttrs (sampleEnv (pstr "size")) ⟨[], ⟨0, 0, 0, 0⟩, 7, sampleFont, .int 0, ⟨none, []⟩⟩ =
      [(pstr "size", pstr "Arial"), (pstr "x0", pstr "0"), (pstr "x1", pstr "0"), (pstr "y0", pstr "0"), (pstr "y1", pstr "0")] := by
  decide +kernel

end Pdf
