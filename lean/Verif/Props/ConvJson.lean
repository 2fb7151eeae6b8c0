import Verif.Spec.Convert
import Verif.Props.Json
import Verif.Props.Text
import Mathlib.Data.List.Infix
/-! Properties C76 and C77: the text converter and the JSON converter. -/

namespace Pdf

open Spec (Shows PageShows ItemJson BlockJson PageJson HasBox HasColor CurveJson JsonEnv JsonBlock JsonItem Json stringsAt stringsAtMembers
  stringsAtList WritesVal WritesArr WritesObj Value Clean)

/-! ### Text -/

theorem flatMap_flatten {α β : Type} (f : α → List β) (l : List α) : l.flatMap f = (l.map f).flatten := List.flatMap_def ..

theorem textItems_eq (l : List Item) (h : ∀ i ∈ l, Shows i (textItem i)) :
    List.Forall₂ Shows l (l.map textItem) ∧ textItems l = (l.map textItem).flatten := by
  induction l with
  | nil => exact ⟨.nil, by rw [textItems]; rfl⟩
  | cons i l ih =>
    obtain ⟨h1, h2⟩ := ih (fun i hi => h i (List.mem_cons_of_mem _ hi))
    exact ⟨.cons (h i List.mem_cons_self) h1, by rw [textItems, h2]; rfl⟩

theorem textItem_shows (i : Item) : Shows i (textItem i) := by
  match i with
  | .text b =>
    have : textItem (.text b) = (b.blocks.map fun cb => (cb.chars.map Prod.fst).flatten).flatten := by
      rw [textItem, flatMap_flatten]
      exact congrArg List.flatten (List.map_congr_left fun cb _ => flatMap_flatten _ _)
    rw [this]; exact .text
  | .xobj s b r m children =>
    have : textItem (.xobj s b r m children) = textItems children := by rw [textItem]
    obtain ⟨h1, h2⟩ := textItems_eq children (fun i _ => textItem_shows i)
    rw [this, h2]; exact .xobj h1
  | .curve c =>
    have e : textItem (.curve c) = [] := by simp [textItem]
    rw [e]; exact .curve
  | .image d data b =>
    have e : textItem (.image d data b) = [] := by simp [textItem]
    rw [e]; exact .image
  | .none =>
    have e : textItem (.none) = [] := by simp [textItem]
    rw [e]; exact .none

theorem forall2_map_eq {α β : Type} {R : α → β → Prop} {f : α → β} {l : List α} {us : List β} (hl : ∀ i ∈ l, ∀ t, R i t → t = f i)
    (h : List.Forall₂ R l us) : us = l.map f := by
  induction h with
  | nil => rfl
  | cons h1 _ ih => rw [List.map_cons, hl _ List.mem_cons_self _ h1, ih (fun i hi => hl i (List.mem_cons_of_mem _ hi))]

theorem shows_unique (i : Item) (t : PyStr) (h : Shows i t) : t = textItem i := by
  match i, t, h with
  | .text b, _, .text =>
    have : textItem (.text b) = (b.blocks.map fun cb => (cb.chars.map Prod.fst).flatten).flatten := by
      rw [textItem, flatMap_flatten]
      exact congrArg List.flatten (List.map_congr_left fun cb _ => flatMap_flatten _ _)
    exact this.symm
  | .xobj s b r m children, _, .xobj (ts := ts) h =>
    have : textItem (.xobj s b r m children) = textItems children := by rw [textItem]
    rw [this, (textItems_eq children (fun i _ => textItem_shows i)).2]
    exact congrArg List.flatten (forall2_map_eq (fun i _ t ht => shows_unique i t ht) h)
  | .curve c, _, .curve => simp [textItem]
  | .image d data b, _, .image => simp [textItem]
  | .none, _, .none => simp [textItem]
termination_by i

theorem pageShows_iff (p : LtPage) (t : PyStr) : PageShows p t ↔ t = textItems p.items := by
  obtain ⟨h1, h2⟩ := textItems_eq p.items (fun i _ => textItem_shows i)
  constructor
  · rintro ⟨ts, h, rfl⟩
    rw [h2]
    congr 1
    clear h1 h2
    generalize p.items = l at h
    induction h with
    | nil => rfl
    | cons a _ ih => rw [List.map_cons, shows_unique _ _ a, ih]
  · rintro rfl
    exact ⟨_, h1, h2⟩

/-- **C76.** Every page shows exactly one text. -/
theorem page_text_total (p : LtPage) : ∃ t, PageShows p t ∧ ∀ t', PageShows p t' → t' = t :=
  ⟨_, (pageShows_iff p _).2 rfl, fun _ h => (pageShows_iff p _).1 h⟩

/-- **C76.** The text file has, for every page in order, the line with the number of the page, all the characters shown on the page in the
order they are shown, also those inside of nested xobjects, and a line end: nothing else. -/
theorem text_file (pages : List LtPage) (ts : List PyStr) (h : List.Forall₂ PageShows pages ts) :
    textFile pages =
      (List.zipWith (fun p t => pstr "========== [ page " ++ numText p.num ++ pstr " ] ==========\n" ++ t ++ pstr "\n") pages ts).flatten := by
  induction h with
  | nil => rfl
  | cons h _ ih =>
    rename_i p t ps ts _
    rw [List.zipWith_cons_cons, List.flatten_cons, ← ih, (pageShows_iff p t).1 h]
    rfl

/-! ### JSON -/

theorem decimal_head (n : Nat) (h : n ≠ 0) : ((decimal n).map UInt8.toNat).head? ≠ some '0'.toNat := by
  induction n using Nat.strong_induction_on with
  | _ n ih =>
    unfold decimal
    split
    · next hl =>
      have : (UInt8.ofNat (48 + n)).toNat = 48 + n := by simp; omega
      simp only [List.map_cons, List.head?_cons, this]
      intro e
      have e : 48 + n = 48 := by injection e
      omega
    · next hl =>
      have := ih (n / 10) (by omega) (by omega)
      have d1 := (decimal_facts (n / 10)).1
      cases hd : decimal (n / 10) with
      | nil => exact absurd hd d1
      | cons a b => rw [hd] at this; simpa using this

theorem numText_number (n : Nat) : Spec.Number (numText n) := by
  obtain ⟨d1, d2, _⟩ := decimal_facts n
  refine ⟨[], numText n, [], [], by simp, .inl rfl, ⟨⟨?_, ?_⟩, ?_⟩, .inl rfl, .inl rfl⟩
  · unfold numText; simpa using d1
  · intro c hc
    obtain ⟨d, hd, rfl⟩ := List.mem_map.1 hc
    exact d2 d hd
  · by_cases h : n = 0
    · subst h; left; decide +kernel
    · right
      exact decimal_head n h

instance (s : PyStr) : Decidable (Clean s) := inferInstanceAs (Decidable (∀ c ∈ s, _))

/-- The relation between a call with a key and a member. -/
def MemberOk (a : PyStr × JVal) (b : PyStr × Json) : Prop := a.1 = b.1 ∧ Clean a.1 ∧ '"'.toNat ∉ a.1 ∧ WritesVal a.2 b.2

theorem writesObj_ofList {l : List (PyStr × JVal)} {js : List (PyStr × Json)} (h : List.Forall₂ MemberOk l js) (nd : (l.map Prod.fst).Nodup)
    (seen : List PyStr) (dis : ∀ k ∈ l.map Prod.fst, k ∉ seen) : WritesObj seen (JObj.ofList l) js := by
  induction h generalizing seen with
  | nil => exact .nil
  | cons h _ ih =>
    rename_i a b l js _
    obtain ⟨k, v⟩ := a
    obtain ⟨k', j⟩ := b
    obtain ⟨rfl, h2, h3, h4⟩ := h
    dsimp only at h2 h3 h4
    rw [List.map_cons, List.nodup_cons] at nd
    refine .cons (dis _ (by simp)) h2 h3 h4 (ih nd.2 _ ?_)
    intro x hx hx'
    rcases List.mem_cons.1 hx' with rfl | hx'
    · exact nd.1 hx
    · exact dis x (by rw [List.map_cons]; exact List.mem_cons_of_mem _ hx) hx'

theorem writesArr_ofList {l : List JVal} {js : List Json} (h : List.Forall₂ WritesVal l js) : WritesArr (JArr.ofList l) js := by
  induction h with
  | nil => exact .nil
  | cons h _ ih => exact .cons h ih

theorem field_of_mem {l : List (PyStr × Json)} (nd : (l.map Prod.fst).Nodup) {k : PyStr} {v : Json} (h : (k, v) ∈ l) :
    (Json.obj l).field k = some v := by
  show (l.find? fun p => p.1 == k).map Prod.snd = some v
  induction l with
  | nil => cases h
  | cons a l ih =>
    rw [List.map_cons, List.nodup_cons] at nd
    rcases List.mem_cons.1 h with rfl | h
    · simp
    · have : a.1 ≠ k := by rintro rfl; exact nd.1 (List.mem_map.2 ⟨_, h, rfl⟩)
      rw [List.find?_cons_of_neg (by simpa using this)]
      exact ih nd.2 h

theorem field_none {l : List (PyStr × Json)} {k : PyStr} (h : k ∉ l.map Prod.fst) : (Json.obj l).field k = none := by
  show (l.find? fun p => p.1 == k).map Prod.snd = none
  rw [Option.map_eq_none_iff, List.find?_eq_none]
  intro a ha
  have : a.1 ≠ k := by rintro rfl; exact h (List.mem_map.2 ⟨_, ha, rfl⟩)
  simpa using this

theorem memberOk_keys {l : List (PyStr × JVal)} {js : List (PyStr × Json)} (h : List.Forall₂ MemberOk l js) :
    js.map Prod.fst = l.map Prod.fst := by
  induction h with
  | nil => rfl
  | cons h _ ih => rw [List.map_cons, List.map_cons, ih, h.1]

theorem stringsAtMembers_cons (key k : PyStr) (j : Json) (l : List (PyStr × Json)) (h : k ≠ key) :
    stringsAtMembers key ((k, j) :: l) = stringsAt key j ++ stringsAtMembers key l := by
  cases j <;> simp [stringsAtMembers, stringsAt, h]

theorem stringsAtMembers_append (key : PyStr) (a b : List (PyStr × Json)) :
    stringsAtMembers key (a ++ b) = stringsAtMembers key a ++ stringsAtMembers key b := by
  induction a with
  | nil => simp [stringsAtMembers]
  | cons x a ih =>
    obtain ⟨k, j⟩ := x
    cases j <;> simp [stringsAtMembers, ih]

theorem memberOk_append {a b : List (PyStr × JVal)} {c d : List (PyStr × Json)} (h : List.Forall₂ MemberOk a c) (h' : List.Forall₂ MemberOk b d) :
    List.Forall₂ MemberOk (a ++ b) (c ++ d) := by
  induction h with
  | nil => exact h'
  | cons h1 _ ih => exact .cons h1 ih

/-- The members of a box. -/
def boxMembers (env : ConvEnv) (b : Bbox) : List (PyStr × Json) :=
  [(pstr "x0", .num (env.fmt b.x0)), (pstr "x1", .num (env.fmt b.x1)), (pstr "y0", .num (env.fmt b.y0)), (pstr "y1", .num (env.fmt b.y1))]

theorem box_ok {env : ConvEnv} (henv : JsonEnv env) (b : Bbox) : List.Forall₂ MemberOk (jBox env b) (boxMembers env b) := by
  have k0 : Clean (pstr "x0") ∧ '"'.toNat ∉ pstr "x0" := by decide
  have k1 : Clean (pstr "x1") ∧ '"'.toNat ∉ pstr "x1" := by decide
  have k2 : Clean (pstr "y0") ∧ '"'.toNat ∉ pstr "y0" := by decide
  have k3 : Clean (pstr "y1") ∧ '"'.toNat ∉ pstr "y1" := by decide
  exact .cons ⟨rfl, k0.1, k0.2, .num (henv.number _)⟩ (.cons ⟨rfl, k1.1, k1.2, .num (henv.number _)⟩
    (.cons ⟨rfl, k2.1, k2.2, .num (henv.number _)⟩ (.cons ⟨rfl, k3.1, k3.2, .num (henv.number _)⟩ .nil)))

theorem box_has {env : ConvEnv} {b : Bbox} {l : List (PyStr × Json)} (nd : (l.map Prod.fst).Nodup) (h : boxMembers env b ⊆ l) :
    HasBox env b (.obj l) :=
  ⟨field_of_mem nd (h (by simp [boxMembers])), field_of_mem nd (h (by simp [boxMembers])), field_of_mem nd (h (by simp [boxMembers])),
    field_of_mem nd (h (by simp [boxMembers]))⟩

theorem color_ok {env : ConvEnv} (henv : JsonEnv env) (key : PyStr) (hk : Clean key ∧ '"'.toNat ∉ key) (c : Color) :
    ∃ js, List.Forall₂ MemberOk (jColor env key c) js ∧ (js = [] ∧ c.space = none ∨
      ∃ cs v, c.space = some cs ∧ js = [(key, v)] ∧ Value (env.dumpColor cs c.values) v ∧ stringsAt (pstr "text") v = []) := by
  unfold jColor
  cases hc : c.space with
  | none => exact ⟨[], .nil, .inl ⟨rfl, rfl⟩⟩
  | some cs =>
    obtain ⟨v, h1, h2⟩ := henv.color cs c.values
    exact ⟨[(key, v)], .cons ⟨rfl, hk.1, hk.2, .placed h1⟩ .nil, .inr ⟨cs, v, rfl, rfl, h1, h2⟩⟩

theorem color_has {env : ConvEnv} {key : PyStr} {c : Color} {js l : List (PyStr × Json)} (nd : (l.map Prod.fst).Nodup) (h : js ⊆ l)
    (hjs : js = [] ∧ c.space = none ∨
      ∃ cs v, c.space = some cs ∧ js = [(key, v)] ∧ Value (env.dumpColor cs c.values) v ∧ stringsAt (pstr "text") v = [])
    (hno : js = [] → key ∉ l.map Prod.fst) : HasColor env key c (.obj l) := by
  rcases hjs with ⟨h1, h2⟩ | ⟨cs, v, h1, h2, h3, _⟩
  · exact ⟨fun _ => field_none (hno h1), fun cs hcs => by rw [h2] at hcs; cases hcs⟩
  · refine ⟨fun hn => (by rw [h1] at hn; cases hn), fun cs' hcs => ?_⟩
    rw [h1] at hcs; cases hcs
    exact ⟨v, h3, field_of_mem nd (h (by rw [h2]; simp))⟩

theorem keepKey_iff (k : PyStr) : keepKey k = true ↔ ¬ Spec.leftOut k := by
  unfold keepKey Spec.leftOut
  generalize pstr "Type" = a
  generalize pstr "FontFile" = b
  have : (k.tails.any fun t => b.isPrefixOf t) = true ↔ b <:+: k := by
    rw [List.any_eq_true]
    constructor
    · rintro ⟨t, ht, h⟩
      rw [List.isPrefixOf_iff_prefix] at h
      exact List.infix_iff_prefix_suffix.2 ⟨t, h, (List.mem_tails _ _).1 ht⟩
    · intro h
      obtain ⟨t, h1, h2⟩ := List.infix_iff_prefix_suffix.1 h
      exact ⟨t, (List.mem_tails _ _).2 h2, List.isPrefixOf_iff_prefix.2 h1⟩
  rw [Bool.and_eq_true, Bool.not_eq_true', Bool.not_eq_true', decide_eq_false_iff_not, ← Bool.not_eq_true, this]
  exact not_or.symm

theorem clean_flatten {α : Type} {l : List α} {f : α → PyStr} (h : ∀ c ∈ l, Clean (f c)) : Clean (l.flatMap f) := by
  intro c hc
  obtain ⟨a, ha, hc⟩ := List.mem_flatMap.1 hc
  exact h a ha c hc

theorem stringsAtMembers_others (l : List (PyStr × PyStr)) (key : PyStr) (h : ∀ p ∈ l, p.1 ≠ key) :
    stringsAtMembers key (l.map fun p => (p.1, Json.str p.2)) = [] := by
  induction l with
  | nil => simp [stringsAtMembers]
  | cons p l ih =>
    rw [List.map_cons, stringsAtMembers_cons _ _ _ _ (h p List.mem_cons_self), ih (fun p hp => h p (List.mem_cons_of_mem _ hp))]
    simp [stringsAt]

theorem box_strings (env : ConvEnv) (b : Bbox) : stringsAtMembers (pstr "text") (boxMembers env b) = [] := by
  simp [boxMembers, stringsAtMembers]

theorem color_strings {js : List (PyStr × Json)} {key : PyStr} {c : Color} (env : ConvEnv) (hk : key ≠ pstr "text")
    (h : js = [] ∧ c.space = none ∨
      ∃ cs v, c.space = some cs ∧ js = [(key, v)] ∧ Value (env.dumpColor cs c.values) v ∧ stringsAt (pstr "text") v = []) :
    stringsAtMembers (pstr "text") js = [] := by
  rcases h with ⟨rfl, _⟩ | ⟨cs, v, _, rfl, _, h⟩
  · simp [stringsAtMembers]
  · rw [stringsAtMembers_cons _ _ _ _ hk, h]; simp [stringsAtMembers]

theorem color_keys {js : List (PyStr × Json)} {key : PyStr} {c : Color} (env : ConvEnv)
    (h : js = [] ∧ c.space = none ∨
      ∃ cs v, c.space = some cs ∧ js = [(key, v)] ∧ Value (env.dumpColor cs c.values) v ∧ stringsAt (pstr "text") v = []) :
    js.map Prod.fst = [] ∨ js.map Prod.fst = [key] := by
  rcases h with ⟨rfl, _⟩ | ⟨cs, v, _, rfl, _, h⟩
  · exact .inl rfl
  · exact .inr rfl

/-- The object of a char-block. -/
theorem block_ok {env : ConvEnv} (henv : JsonEnv env) (b : CharBlock) (hb : JsonBlock env b) :
    ∃ j, WritesVal (.obj (JObj.ofList (jCharBlock env b))) j ∧ BlockJson env b j ∧ stringsAt (pstr "text") j = [b.text] := by
  obtain ⟨cjs, hc, hcjs⟩ := color_ok henv (pstr "color") (by decide) b.color
  generalize hd : ((env.descriptor b.font).filter fun p => keepKey p.1) = ds
  have hsub : ∀ p ∈ ds, p ∈ env.descriptor b.font ∧ keepKey p.1 = true := by
    intro p hp; rw [← hd] at hp; simpa using hp
  have hnd : (ds.map Prod.fst).Nodup := by
    rw [← hd]
    exact List.Nodup.sublist (List.Sublist.map _ List.filter_sublist) hb.keys
  let js : List (PyStr × Json) := [(pstr "size", .num (env.fmt b.size))] ++ boxMembers env b.bbox ++ cjs ++
    (ds.map fun p => (p.1, Json.str p.2)) ++ [(pstr "text", .str b.text)]
  have ok : List.Forall₂ MemberOk (jCharBlock env b) js := by
    have k0 : Clean (pstr "size") ∧ '"'.toNat ∉ pstr "size" := by decide
    have k1 : Clean (pstr "text") ∧ '"'.toNat ∉ pstr "text" := by decide
    unfold jCharBlock
    rw [hd]
    refine memberOk_append (memberOk_append (memberOk_append (memberOk_append ?_ (box_ok henv _)) hc) ?_) ?_
    · exact .cons ⟨rfl, k0.1, k0.2, .num (henv.number _)⟩ .nil
    · clear hd hnd js
      induction ds with
      | nil => exact .nil
      | cons p ds ih =>
        have := hb.fresh p (hsub p List.mem_cons_self).1
        exact .cons ⟨rfl, this.2.1, this.2.2.1, .str this.2.2.2⟩ (ih (fun q hq => hsub q (List.mem_cons_of_mem _ hq)))
    · exact .cons ⟨rfl, k1.1, k1.2, .str (clean_flatten hb.text)⟩ .nil
  have hkeys : js.map Prod.fst = [pstr "size", pstr "x0", pstr "x1", pstr "y0", pstr "y1"] ++ cjs.map Prod.fst ++ ds.map Prod.fst ++ [pstr "text"] := by
    have : (ds.map fun p => (p.1, Json.str p.2)).map Prod.fst = ds.map Prod.fst := by rw [List.map_map]; rfl
    show ([(pstr "size", Json.num (env.fmt b.size))] ++ boxMembers env b.bbox ++ cjs ++
      (ds.map fun p => (p.1, Json.str p.2)) ++ [(pstr "text", Json.str b.text)]).map Prod.fst = _
    rw [List.map_append, List.map_append, List.map_append, this]
    rfl
  have hres : ∀ k ∈ ds.map Prod.fst, k ∉ Spec.reserved := by
    intro k hk
    obtain ⟨p, hp, rfl⟩ := List.mem_map.1 hk
    exact (hb.fresh p (hsub p hp).1).1
  have nd : (js.map Prod.fst).Nodup := by
    rw [hkeys]
    have hfix : ∀ c : List PyStr, (c = [] ∨ c = [pstr "color"]) →
        ([pstr "size", pstr "x0", pstr "x1", pstr "y0", pstr "y1"] ++ c).Nodup ∧
        ([pstr "size", pstr "x0", pstr "x1", pstr "y0", pstr "y1"] ++ c ⊆ Spec.reserved) ∧
        pstr "text" ∉ [pstr "size", pstr "x0", pstr "x1", pstr "y0", pstr "y1"] ++ c := by
      rintro c (rfl | rfl) <;> decide
    obtain ⟨f1, f2, f3⟩ := hfix _ (color_keys env hcjs)
    rw [List.nodup_append, List.nodup_append]
    refine ⟨⟨f1, hnd, ?_⟩, by simp, ?_⟩
    · rintro a ha b' hb' rfl
      exact hres a hb' (f2 ha)
    · intro a ha b' hb' e
      rw [List.mem_singleton.1 hb'] at e
      subst e
      rcases List.mem_append.1 ha with h | h
      · exact f3 h
      · exact hres _ h (by decide)
  have wr : WritesVal (.obj (JObj.ofList (jCharBlock env b))) (.obj js) :=
    .obj (writesObj_ofList ok (by rw [← memberOk_keys ok]; exact nd) [] (by simp))
  refine ⟨.obj js, wr, ⟨?_, ?_, ?_, ?_, ?_⟩, ?_⟩
  · exact field_of_mem nd (by simp [js])
  · exact box_has nd (by intro x hx; simp [js, hx])
  · refine color_has nd (js := cjs) (by intro x hx; simp [js, hx]) hcjs ?_
    intro he
    rw [hkeys, he]
    intro hm
    simp only [List.map_nil, List.append_nil] at hm
    rcases List.mem_append.1 hm with h | h
    · rcases List.mem_append.1 h with h | h
      · revert h; decide
      · exact hres _ h (by decide)
    · revert h; decide
  · intro p hp hk
    refine field_of_mem nd ?_
    have : p ∈ ds := by rw [← hd]; exact List.mem_filter.2 ⟨hp, (keepKey_iff _).2 hk⟩
    have : (p.1, Json.str p.2) ∈ ds.map fun p => (p.1, Json.str p.2) := List.mem_map.2 ⟨p, this, rfl⟩
    exact List.mem_append.2 (.inl (List.mem_append.2 (.inr this)))
  · have : b.text = (b.chars.map Prod.fst).flatten := flatMap_flatten _ _
    rw [← this]
    exact field_of_mem nd (by simp [js])
  · show stringsAt (pstr "text") (.obj js) = [b.text]
    rw [stringsAt]
    show stringsAtMembers (pstr "text") ([(pstr "size", Json.num (env.fmt b.size))] ++ boxMembers env b.bbox ++ cjs ++
      (ds.map fun p => (p.1, Json.str p.2)) ++ [(pstr "text", Json.str b.text)]) = _
    rw [stringsAtMembers_append, stringsAtMembers_append, stringsAtMembers_append, stringsAtMembers_append, box_strings,
      color_strings env (by decide) hcjs, stringsAtMembers_others]
    · simp [stringsAtMembers]
    · intro p hp e
      exact hres p.1 (List.mem_map.2 ⟨p, hp, rfl⟩) (by rw [e]; decide)

theorem forall2_exists {α β : Type} {R : α → β → Prop} {l : List α} (h : ∀ a ∈ l, ∃ b, R a b) : ∃ bs, List.Forall₂ R l bs := by
  induction l with
  | nil => exact ⟨[], .nil⟩
  | cons a l ih =>
    obtain ⟨b, hb⟩ := h a List.mem_cons_self
    obtain ⟨bs, hbs⟩ := ih (fun a ha => h a (List.mem_cons_of_mem _ ha))
    exact ⟨b :: bs, .cons hb hbs⟩

theorem obj_writes {l : List (PyStr × JVal)} {js : List (PyStr × Json)} (ok : List.Forall₂ MemberOk l js) (nd : (js.map Prod.fst).Nodup) :
    WritesVal (.obj (JObj.ofList l)) (.obj js) :=
  .obj (writesObj_ofList ok (by rw [← memberOk_keys ok]; exact nd) [] (by simp))

/-- The object of a curve. -/
theorem curve_ok {env : ConvEnv} (henv : JsonEnv env) (c : Curve) :
    ∃ j, WritesVal (.obj (JObj.ofList (jCurve env c))) j ∧ CurveJson env c j ∧ stringsAt (pstr "text") j = [] := by
  obtain ⟨fjs, hf, hfjs⟩ := color_ok henv (pstr "fill") (by decide) c.fill
  obtain ⟨sjs, hs, hsjs⟩ := color_ok henv (pstr "stroke") (by decide) c.stroke
  have kt : Clean (pstr "type") ∧ '"'.toNat ∉ pstr "type" := by decide
  have kp : Clean (pstr "paths") ∧ '"'.toNat ∉ pstr "paths" := by decide
  have hpaths : ∃ pjs, List.Forall₂ WritesVal (c.paths.map fun p => JVal.placed (env.dumpPath p)) pjs ∧
      List.Forall₂ (fun p v => Value (env.dumpPath p) v) c.paths pjs ∧ stringsAtList (pstr "text") pjs = [] := by
    generalize c.paths = l
    induction l with
    | nil => exact ⟨[], .nil, .nil, by rw [stringsAtList]⟩
    | cons p l ih =>
      obtain ⟨j, h1, h2⟩ := henv.path p
      obtain ⟨pjs, i1, i2, i3⟩ := ih
      exact ⟨j :: pjs, .cons (.placed h1) i1, .cons h1 i2, by rw [stringsAtList, h2, i3]; rfl⟩
  obtain ⟨pjs, hp1, hp2, hp3⟩ := hpaths
  -- the members that depend on the class
  have tail : ∃ tjs : List (PyStr × Json), List.Forall₂ MemberOk
      (match c.kind with
        | .rect => [(pstr "type", JVal.str (pstr "rect"))]
        | .line | .horizontal | .vertical => [(pstr "type", .str (pstr "line"))]
        | .curve => [(pstr "type", .str (pstr "curve")), (pstr "paths", .arr (JArr.ofList (c.paths.map fun p => .placed (env.dumpPath p))))]) tjs ∧
      (tjs.map Prod.fst = [pstr "type"] ∨ tjs.map Prod.fst = [pstr "type", pstr "paths"]) ∧ (pstr "type", .str (Spec.kindName c.kind)) ∈ tjs ∧
      (c.kind = .curve → (pstr "paths", .arr pjs) ∈ tjs) ∧ stringsAtMembers (pstr "text") tjs = [] := by
    have one : ∀ s, Clean s → ∃ tjs : List (PyStr × Json), List.Forall₂ MemberOk [(pstr "type", JVal.str s)] tjs ∧
        (tjs.map Prod.fst = [pstr "type"] ∨ tjs.map Prod.fst = [pstr "type", pstr "paths"]) ∧ (pstr "type", Json.str s) ∈ tjs ∧
        stringsAtMembers (pstr "text") tjs = [] := by
      intro s hs
      refine ⟨[(pstr "type", .str s)], .cons ⟨rfl, kt.1, kt.2, .str hs⟩ .nil, .inl rfl, by simp, ?_⟩
      rw [stringsAtMembers_cons _ _ _ _ (by decide)]; simp [stringsAt, stringsAtMembers]
    cases hk : c.kind with
    | rect =>
      obtain ⟨t, a, b, c, d⟩ := one (pstr "rect") (by decide)
      exact ⟨t, a, b, c, (by intro h; cases h), d⟩
    | line =>
      obtain ⟨t, a, b, c, d⟩ := one (pstr "line") (by decide)
      exact ⟨t, a, b, c, (by intro h; cases h), d⟩
    | horizontal =>
      obtain ⟨t, a, b, c, d⟩ := one (pstr "line") (by decide)
      exact ⟨t, a, b, c, (by intro h; cases h), d⟩
    | vertical =>
      obtain ⟨t, a, b, c, d⟩ := one (pstr "line") (by decide)
      exact ⟨t, a, b, c, (by intro h; cases h), d⟩
    | curve =>
      refine ⟨[(pstr "type", .str (pstr "curve")), (pstr "paths", .arr pjs)], .cons ⟨rfl, kt.1, kt.2, .str (by decide)⟩
        (.cons ⟨rfl, kp.1, kp.2, .arr (writesArr_ofList hp1)⟩ .nil), .inr rfl, by simp [Spec.kindName], fun _ => by simp, ?_⟩
      rw [stringsAtMembers_cons _ _ _ _ (by decide), stringsAtMembers_cons _ _ _ _ (by decide)]
      simp [stringsAt, stringsAtMembers, hp3]
  obtain ⟨tjs, ht, htk, htt, htp, hts⟩ := tail
  let js : List (PyStr × Json) := boxMembers env c.bbox ++ fjs ++ sjs ++ tjs
  have ok : List.Forall₂ MemberOk (jCurve env c) js := memberOk_append (memberOk_append (memberOk_append (box_ok henv _) hf) hs) ht
  have hkeys : js.map Prod.fst = [pstr "x0", pstr "x1", pstr "y0", pstr "y1"] ++ fjs.map Prod.fst ++ sjs.map Prod.fst ++ tjs.map Prod.fst := by
    show (boxMembers env c.bbox ++ fjs ++ sjs ++ tjs).map Prod.fst = _
    rw [List.map_append, List.map_append, List.map_append]
    rfl
  have nd : (js.map Prod.fst).Nodup := by
    rw [hkeys]
    rcases color_keys env hfjs with h1 | h1 <;> rcases color_keys env hsjs with h2 | h2 <;> rcases htk with h3 | h3 <;>
      rw [h1, h2, h3] <;> decide
  refine ⟨.obj js, obj_writes ok nd, ⟨?_, ?_, ?_, ?_, ?_⟩, ?_⟩
  · exact field_of_mem nd (by simp [js, htt])
  · exact box_has nd (by intro x hx; simp [js, hx])
  · refine color_has nd (js := fjs) (by intro x hx; simp [js, hx]) hfjs ?_
    intro he
    rw [hkeys, he]
    rcases color_keys env hsjs with h2 | h2 <;> rcases htk with h3 | h3 <;> rw [h2, h3] <;> decide
  · refine color_has nd (js := sjs) (by intro x hx; simp [js, hx]) hsjs ?_
    intro he
    rw [hkeys, he]
    rcases color_keys env hfjs with h2 | h2 <;> rcases htk with h3 | h3 <;> rw [h2, h3] <;> decide
  · intro hk
    exact ⟨pjs, field_of_mem nd (by simp [js, htp hk]), hp2⟩
  · show stringsAt (pstr "text") (.obj js) = []
    rw [stringsAt]
    show stringsAtMembers (pstr "text") (boxMembers env c.bbox ++ fjs ++ sjs ++ tjs) = []
    rw [stringsAtMembers_append, stringsAtMembers_append, stringsAtMembers_append, box_strings, color_strings env (by decide) hfjs,
      color_strings env (by decide) hsjs, hts]
    rfl

/-- The array of the char-blocks of a text block. -/
theorem blocks_ok {env : ConvEnv} (henv : JsonEnv env) (l : List CharBlock) (h : ∀ cb ∈ l, JsonBlock env cb) :
    ∃ js, List.Forall₂ WritesVal (l.map fun cb => JVal.obj (JObj.ofList (jCharBlock env cb))) js ∧ List.Forall₂ (BlockJson env) l js ∧
      (stringsAtList (pstr "text") js).flatten = l.flatMap CharBlock.text := by
  induction l with
  | nil => exact ⟨[], .nil, .nil, by rw [stringsAtList]; rfl⟩
  | cons cb l ih =>
    obtain ⟨j, h1, h2, h3⟩ := block_ok henv cb (h cb List.mem_cons_self)
    obtain ⟨js, i1, i2, i3⟩ := ih (fun cb hcb => h cb (List.mem_cons_of_mem _ hcb))
    exact ⟨j :: js, .cons h1 i1, .cons h2 i2, by rw [stringsAtList, h3, List.flatten_append, i3]; simp⟩

theorem items_ok {env : ConvEnv} (l : List Item)
    (h : ∀ i ∈ l, ∃ j, WritesVal (.obj (JObj.ofList (jItem env i))) j ∧ ItemJson env i j ∧ (stringsAt (pstr "text") j).flatten = textItem i) :
    ∃ js, WritesArr (jItems env l) js ∧ List.Forall₂ (ItemJson env) l js ∧ (stringsAtList (pstr "text") js).flatten = textItems l := by
  induction l with
  | nil => exact ⟨[], by rw [jItems]; exact .nil, .nil, by rw [stringsAtList, textItems]; rfl⟩
  | cons i l ih =>
    obtain ⟨j, h1, h2, h3⟩ := h i List.mem_cons_self
    obtain ⟨js, i1, i2, i3⟩ := ih (fun i hi => h i (List.mem_cons_of_mem _ hi))
    exact ⟨j :: js, by rw [jItems]; exact .cons h1 i1, .cons h2 i2, by rw [stringsAtList, List.flatten_append, h3, i3, textItems]⟩

theorem item_ok {env : ConvEnv} (henv : JsonEnv env) (i : Item) (hi : JsonItem env i) :
    ∃ j, WritesVal (.obj (JObj.ofList (jItem env i))) j ∧ ItemJson env i j ∧ (stringsAt (pstr "text") j).flatten = textItem i := by
  have kt : Clean (pstr "type") ∧ '"'.toNat ∉ pstr "type" := by decide
  have kc : Clean (pstr "children") ∧ '"'.toNat ∉ pstr "children" := by decide
  have kb : Clean (pstr "char_blocks") ∧ '"'.toNat ∉ pstr "char_blocks" := by decide
  have ks : Clean (pstr "src") ∧ '"'.toNat ∉ pstr "src" := by decide
  match i, hi with
  | .curve c, .curve =>
    obtain ⟨j, h1, h2, h3⟩ := curve_ok henv c
    exact ⟨j, by rw [jItem]; exact h1, .curve h2, by rw [h3]; simp [textItem]⟩
  | .none, .none => exact ⟨.obj [], by rw [jItem]; exact .obj .nil, .none, by simp [textItem, stringsAt, stringsAtMembers]⟩
  | .image d data b, .image hn =>
    have ok : List.Forall₂ MemberOk (jItem env (.image d data b)) ([(pstr "type", Json.str (pstr "img")), (pstr "src", .str (env.imageName d data))] ++ boxMembers env b) := by
      rw [jItem]
      exact memberOk_append (.cons ⟨rfl, kt.1, kt.2, .str (by decide)⟩ (.cons ⟨rfl, ks.1, ks.2, .str hn⟩ .nil)) (box_ok henv b)
    have nd : (([(pstr "type", Json.str (pstr "img")), (pstr "src", .str (env.imageName d data))] ++ boxMembers env b).map Prod.fst).Nodup := by
      have : ([(pstr "type", Json.str (pstr "img")), (pstr "src", .str (env.imageName d data))] ++ boxMembers env b).map Prod.fst =
        [pstr "type", pstr "src", pstr "x0", pstr "x1", pstr "y0", pstr "y1"] := rfl
      rw [this]; decide
    refine ⟨_, obj_writes ok nd, .image ?_ ?_ (box_has nd (by intro x hx; simp [hx])), ?_⟩
    · exact field_of_mem nd (by simp)
    · exact field_of_mem nd (by simp)
    rw [stringsAt, stringsAtMembers_append, box_strings, stringsAtMembers_cons _ _ _ _ (by decide), stringsAtMembers_cons _ _ _ _ (by decide)]
    simp [stringsAt, stringsAtMembers, textItem]
  | .text b, .text hbox hblocks =>
    obtain ⟨box, hbox⟩ := Option.isSome_iff_exists.1 hbox
    obtain ⟨bjs, b1, b2, b3⟩ := blocks_ok henv b.blocks hblocks
    have ok : List.Forall₂ MemberOk (jItem env (.text b)) ([(pstr "type", Json.str (pstr "text-block"))] ++ boxMembers env box ++ [(pstr "char_blocks", Json.arr bjs)]) := by
      rw [jItem, hbox]
      exact memberOk_append (memberOk_append (.cons ⟨rfl, kt.1, kt.2, .str (by decide)⟩ .nil) (box_ok henv box))
        (.cons ⟨rfl, kb.1, kb.2, .arr (writesArr_ofList b1)⟩ .nil)
    have nd : (([(pstr "type", Json.str (pstr "text-block"))] ++ boxMembers env box ++ [(pstr "char_blocks", Json.arr bjs)]).map Prod.fst).Nodup := by
      have : ([(pstr "type", Json.str (pstr "text-block"))] ++ boxMembers env box ++ [(pstr "char_blocks", Json.arr bjs)]).map Prod.fst =
        [pstr "type", pstr "x0", pstr "x1", pstr "y0", pstr "y1", pstr "char_blocks"] := rfl
      rw [this]; decide
    refine ⟨_, obj_writes ok nd, .text (box := box) (l := bjs) hbox ?_ (box_has nd (by intro x hx; simp [hx])) ?_ b2, ?_⟩
    · exact field_of_mem nd (by simp)
    · exact field_of_mem nd (by simp)
    rw [stringsAt, stringsAtMembers_append, stringsAtMembers_append, box_strings, stringsAtMembers_cons _ _ _ _ (by decide),
      stringsAtMembers_cons _ _ _ _ (by decide)]
    have : textItem (.text b) = b.blocks.flatMap CharBlock.text := by rw [textItem]; rfl
    rw [this, ← b3]
    simp [stringsAt, stringsAtMembers]
  | .xobj s b r m children, .xobj hch =>
    obtain ⟨cjs, c1, c2, c3⟩ := items_ok children (fun i hi => item_ok henv i (hch i hi))
    have ok : List.Forall₂ MemberOk (jItem env (.xobj s b r m children)) ([(pstr "type", Json.str (pstr "xobject"))] ++ boxMembers env b ++ [(pstr "children", Json.arr cjs)]) := by
      rw [jItem]
      exact memberOk_append (memberOk_append (.cons ⟨rfl, kt.1, kt.2, .str (by decide)⟩ .nil) (box_ok henv b))
        (.cons ⟨rfl, kc.1, kc.2, .arr c1⟩ .nil)
    have nd : (([(pstr "type", Json.str (pstr "xobject"))] ++ boxMembers env b ++ [(pstr "children", Json.arr cjs)]).map Prod.fst).Nodup := by
      have : ([(pstr "type", Json.str (pstr "xobject"))] ++ boxMembers env b ++ [(pstr "children", Json.arr cjs)]).map Prod.fst =
        [pstr "type", pstr "x0", pstr "x1", pstr "y0", pstr "y1", pstr "children"] := rfl
      rw [this]; decide
    refine ⟨_, obj_writes ok nd, .xobj (l := cjs) ?_ (box_has nd (by intro x hx; simp [hx])) ?_ c2, ?_⟩
    · exact field_of_mem nd (by simp)
    · exact field_of_mem nd (by simp)
    rw [stringsAt, stringsAtMembers_append, stringsAtMembers_append, box_strings, stringsAtMembers_cons _ _ _ _ (by decide),
      stringsAtMembers_cons _ _ _ _ (by decide)]
    have : textItem (.xobj s b r m children) = textItems children := by rw [textItem]
    rw [this, ← c3]
    simp [stringsAt, stringsAtMembers]
termination_by i

theorem page_ok {env : ConvEnv} (henv : JsonEnv env) (p : LtPage) (hp : ∀ i ∈ p.items, JsonItem env i) :
    ∃ j, WritesVal (jPage env p) j ∧ PageJson env p j := by
  obtain ⟨cjs, c1, c2, c3⟩ := items_ok p.items (fun i hi => item_ok henv i (hp i hi))
  have k1 : Clean (pstr "id") ∧ '"'.toNat ∉ pstr "id" := by decide
  have k2 : Clean (pstr "width") ∧ '"'.toNat ∉ pstr "width" := by decide
  have k3 : Clean (pstr "height") ∧ '"'.toNat ∉ pstr "height" := by decide
  have k4 : Clean (pstr "children") ∧ '"'.toNat ∉ pstr "children" := by decide
  let js : List (PyStr × Json) := [(pstr "id", .num (numText p.num)), (pstr "width", .num (env.fmt p.width)), (pstr "height", .num (env.fmt p.height)),
    (pstr "children", Json.arr cjs)]
  have ok : List.Forall₂ MemberOk [(pstr "id", .num (numText p.num)), (pstr "width", .num (env.fmt p.width)), (pstr "height", .num (env.fmt p.height)),
      (pstr "children", .arr (jItems env p.items))] js :=
    .cons ⟨rfl, k1.1, k1.2, .num (numText_number _)⟩ (.cons ⟨rfl, k2.1, k2.2, .num (henv.number _)⟩
      (.cons ⟨rfl, k3.1, k3.2, .num (henv.number _)⟩ (.cons ⟨rfl, k4.1, k4.2, .arr c1⟩ .nil)))
  have nd : (js.map Prod.fst).Nodup := by
    have : js.map Prod.fst = [pstr "id", pstr "width", pstr "height", pstr "children"] := rfl
    rw [this]; decide
  refine ⟨.obj js, obj_writes ok nd, ⟨field_of_mem nd (by simp [js]), field_of_mem nd (by simp [js]), field_of_mem nd (by simp [js]),
    ⟨cjs, field_of_mem nd (by simp [js]), c2⟩, ?_⟩⟩
  rw [pageShows_iff, ← c3]
  show (stringsAt (pstr "text") (.obj js)).flatten = _
  rw [stringsAt]
  simp only [js]
  rw [stringsAtMembers_cons _ _ _ _ (by decide), stringsAtMembers_cons _ _ _ _ (by decide), stringsAtMembers_cons _ _ _ _ (by decide),
    stringsAtMembers_cons _ _ _ _ (by decide)]
  simp [stringsAt, stringsAtMembers]

/-- **C77 (partial).** The JSON file is a JSON document with one object for every page, in order, that has the number and size of the page, an
object for every item with its class, box, colours, font descriptor and text, and the same text, in the same order, as the text converter
writes; and it can be read in no other way. -/
theorem json_document_partial (env : ConvEnv) (henv : JsonEnv env) (pages : List LtPage) (hitems : ∀ p ∈ pages, ∀ i ∈ p.items, JsonItem env i) :
    ∃ js, Spec.JsonText (jsonFile env pages) (.obj [(pstr "pages", .arr js)]) ∧ List.Forall₂ (PageJson env) pages js ∧
      ∀ j, Spec.JsonText (jsonFile env pages) j → j = .obj [(pstr "pages", .arr js)] := by
  have hp : ∀ p ∈ pages, ∃ j, WritesVal (jPage env p) j ∧ PageJson env p j := fun p h => page_ok henv p (hitems p h)
  clear hitems
  have : ∃ js, List.Forall₂ WritesVal (pages.map (jPage env)) js ∧ List.Forall₂ (PageJson env) pages js := by
    clear henv
    induction pages with
    | nil => exact ⟨[], .nil, .nil⟩
    | cons p l ih =>
      obtain ⟨j, h1, h2⟩ := hp p List.mem_cons_self
      obtain ⟨js, i1, i2⟩ := ih (fun p h => hp p (List.mem_cons_of_mem _ h))
      exact ⟨j :: js, .cons h1 i1, .cons h2 i2⟩
  obtain ⟨js, h1, h2⟩ := this
  have k : Clean (pstr "pages") ∧ '"'.toNat ∉ pstr "pages" := by decide
  have w : Spec.JsonText (jsonFile env pages) (.obj [(pstr "pages", .arr js)]) :=
    json_writer_partial _ _ (writesObj_ofList (l := [(pstr "pages", .arr (JArr.ofList (pages.map (jPage env))))])
      (.cons ⟨rfl, k.1, k.2, .arr (writesArr_ofList h1)⟩ .nil) (by simp) [] (by simp))
  exact ⟨js, w, h2, fun j hj => json_unique hj w⟩

/-! ### What does not hold -/

/-- Where a reader of JSON is: outside of strings, inside of one, after a backslash. -/
inductive JScan where
  | out | inside | slash
deriving DecidableEq

/-- The characters that may be outside of strings. -/
def outsideChar (c : Nat) : Bool := wordChar c || c ∈ Spec.cp " \t\n\r,:[]{}"

/-- Reads a text and fails at a character outside of strings that no JSON text has there. -/
def scanJson : JScan → PyStr → Option JScan
  | st, [] => some st
  | .out, c :: r => if c = 0x22 then scanJson .inside r else if outsideChar c then scanJson .out r else none
  | .inside, c :: r => if c = 0x22 then scanJson .out r else if c = 0x5c then scanJson .slash r else scanJson .inside r
  | .slash, _ :: r => scanJson .inside r

theorem scanJson_append (st : JScan) (a b : PyStr) : scanJson st (a ++ b) = (scanJson st a).bind fun st' => scanJson st' b := by
  induction a generalizing st with
  | nil => cases st <;> simp [scanJson]
  | cons c a ih =>
    cases st <;> simp only [List.cons_append, scanJson]
    · split
      · exact ih _
      · split
        · exact ih _
        · rfl
    · split
      · exact ih _
      · split <;> exact ih _
    · exact ih _

theorem scanJson_out {t : PyStr} (h : ∀ c ∈ t, outsideChar c = true) : scanJson .out t = some .out := by
  induction t with
  | nil => rfl
  | cons c t ih =>
    have hc := h c List.mem_cons_self
    have : c ≠ 0x22 := by rintro rfl; revert hc; decide
    rw [scanJson, if_neg this, if_pos hc]
    exact ih (fun c hc => h c (List.mem_cons_of_mem _ hc))

theorem scanJson_ws {w : PyStr} (h : Spec.Ws w) : scanJson .out w = some .out := by
  refine scanJson_out fun c hc => ?_
  have : ∀ c ∈ Spec.cp " \t\n\r", outsideChar c = true := by decide
  exact this c (h c hc)

theorem hex_plain {c x : Nat} (h : Spec.jsonHex c = some x) : c ≠ 0x22 ∧ c ≠ 0x5c := by
  constructor <;> rintro rfl <;> revert h <;> simp [Spec.jsonHex]

theorem scanJson_body {t s : PyStr} (h : Spec.JsonStr t s) : scanJson .inside t = some .inside := by
  induction h with
  | nil => rfl
  | plain _ h1 h2 _ ih => rw [scanJson, if_neg (show _ ≠ 0x22 from h1), if_neg (show _ ≠ 0x5c from h2)]; exact ih
  | escape _ _ ih => rw [scanJson, if_neg (by decide), if_pos (by decide), scanJson]; exact ih
  | unicode h1 h2 h3 h4 _ ih =>
    rw [scanJson, if_neg (by decide), if_pos (by decide), scanJson, scanJson, if_neg (hex_plain h1).1, if_neg (hex_plain h1).2, scanJson,
      if_neg (hex_plain h2).1, if_neg (hex_plain h2).2, scanJson, if_neg (hex_plain h3).1, if_neg (hex_plain h3).2, scanJson,
      if_neg (hex_plain h4).1, if_neg (hex_plain h4).2]
    exact ih

theorem scanJson_quoted {t s : PyStr} (h : Spec.JsonStr t s) : scanJson .out (Spec.cp "\"" ++ t ++ Spec.cp "\"") = some .out := by
  rw [scanJson_append, scanJson_append]
  have : scanJson .out (Spec.cp "\"") = some .inside := by decide
  rw [this]; simp only [Option.bind_some]; rw [scanJson_body h]
  decide

mutual
theorem scanJson_value {t : PyStr} {v : Json} (h : Value t v) : scanJson .out t = some .out := by
  cases h with
  | num h => exact scanJson_out fun c hc => by unfold outsideChar; rw [number_word h c hc]; rfl
  | lit h => exact scanJson_out fun c hc => by unfold outsideChar; rw [lit_word h c hc]; rfl
  | str h => exact scanJson_quoted h
  | arrEmpty h =>
    rw [scanJson_append, scanJson_append, show scanJson .out (Spec.cp "[") = some .out by decide]
    simp only [Option.bind_some]; rw [scanJson_ws h]; decide
  | arr h =>
    rw [scanJson_append, scanJson_append, show scanJson .out (Spec.cp "[") = some .out by decide]
    simp only [Option.bind_some]; rw [scanJson_elems h]; decide
  | objEmpty h =>
    rw [scanJson_append, scanJson_append, show scanJson .out (Spec.cp "{") = some .out by decide]
    simp only [Option.bind_some]; rw [scanJson_ws h]; decide
  | obj h =>
    rw [scanJson_append, scanJson_append, show scanJson .out (Spec.cp "{") = some .out by decide]
    simp only [Option.bind_some]; rw [scanJson_members h]; decide
theorem scanJson_elems {t : PyStr} {l : List Json} (h : Spec.Elems t l) : scanJson .out t = some .out := by
  have c : scanJson .out (Spec.cp ",") = some .out := by decide
  cases h with
  | one h1 h2 h3 =>
    simp only [scanJson_append, scanJson_ws h1, scanJson_value h2, scanJson_ws h3, Option.bind_some]
  | more h1 h2 h3 h4 =>
    simp only [scanJson_append, scanJson_ws h1, scanJson_value h2, scanJson_ws h3, c, scanJson_elems h4, Option.bind_some]
theorem scanJson_members {t : PyStr} {l : List (PyStr × Json)} (h : Spec.Members t l) : scanJson .out t = some .out := by
  have c : scanJson .out (Spec.cp ",") = some .out := by decide
  have d : scanJson .out (Spec.cp ":") = some .out := by decide
  have q : scanJson .out (Spec.cp "\"") = some .inside := by decide
  have q' : scanJson .inside (Spec.cp "\"") = some .out := by decide
  cases h with
  | one h1 h2 h3 h4 h5 h6 =>
    simp only [scanJson_append, scanJson_ws h1, q, scanJson_body h2, q', scanJson_ws h3, d, scanJson_ws h4, scanJson_value h5, scanJson_ws h6,
      Option.bind_some]
  | more h1 h2 h3 h4 h5 h6 h7 =>
    simp only [scanJson_append, scanJson_ws h1, q, scanJson_body h2, q', scanJson_ws h3, d, scanJson_ws h4, scanJson_value h5, scanJson_ws h6,
      c, scanJson_members h7, Option.bind_some]
end

theorem scanJson_text {t : PyStr} {v : Json} (h : Spec.JsonText t v) : scanJson .out t = some .out := by
  obtain ⟨w1, m, w2, rfl, h1, h2, h3⟩ := h
  simp only [scanJson_append, scanJson_ws h1, scanJson_value h3, scanJson_ws h2, Option.bind_some]

/-- A font for examples. -/
def sampleFont : Font where
  name := .name (asc "F")
  decode := fun _ => .ok []
  toUnichr := fun _ => .ok []
  multibyte := false
  vertical := false
  charWidth := fun _ => .ok 0
  charDisp := fun _ => .ok (none, 0)
  height := .ok 0
  descent := .ok 0
  width := .ok 0

/-- An environment for examples: all numbers are written as `0`, and font descriptors have one item. -/
def sampleEnv (key : PyStr) : ConvEnv where
  fmt := fun _ => pstr "0"
  descriptor := fun _ => [(key, pstr "Arial")]
  imageName := fun _ _ => pstr "img"
  dumpColor := fun _ _ => pstr "\"black\""
  dumpPath := fun _ => pstr "[]"
  colorName := fun _ => pstr "DeviceGray"
  colorValues := fun _ => pstr "0"
  attrName := fun k => k

/-- A page with one char-block, whose characters have the given texts. -/
def samplePage (texts : List PyStr) : LtPage :=
  ⟨1, 0, 0, [.xobj .null ⟨0, 0, 0, 0⟩ .null Mat.identity [.text ⟨some ⟨0, 0, 0, 0⟩,
    [⟨texts.map fun t => (t, ⟨0, 0, 0, 0⟩, 0), ⟨0, 0, 0, 0⟩, 0, sampleFont, .int 0, ⟨some ⟨asc "DeviceGray", .int 1⟩, []⟩⟩]⟩], .none]⟩

/-- A page with an empty text object (`BT ET`) makes a file that is not JSON: the coordinates are written as `None`. -/
theorem json_empty_block_counterexample (j : Json) : ¬ Spec.JsonText (jsonFile (sampleEnv (pstr "FontName")) [⟨1, 0, 0, [.text {}]⟩]) j := by
  intro h
  have := scanJson_text h
  revert this
  decide +kernel

/-- A font descriptor with the key `text` hides the text: two pages with different texts make the same file. -/
theorem json_hidden_text_counterexample :
    textFile [samplePage [pstr "a"]] ≠ textFile [samplePage [pstr "b"]] ∧
    jsonFile (sampleEnv (pstr "text")) [samplePage [pstr "a"]] = jsonFile (sampleEnv (pstr "text")) [samplePage [pstr "b"]] := by
  constructor <;> decide +kernel

/-- The hypotheses are met: a page with an xobject that has a text block. -/
theorem sampleEnv_ok : JsonEnv (sampleEnv (pstr "FontName")) := by
  refine ⟨fun _ => ?_, fun _ _ => ⟨.str (pstr "black"), ?_, by simp [stringsAt]⟩, fun _ => ⟨.arr [], ?_, by simp [stringsAt, stringsAtList]⟩⟩
  · exact ⟨[], pstr "0", [], [], rfl, .inl rfl, ⟨⟨by decide, by decide⟩, .inl rfl⟩, .inl rfl, .inl rfl⟩
  · exact .str (t := pstr "black") (strBody_plain _ (by decide) (by decide))
  · exact .arrEmpty (w := []) ws_nil

theorem samplePage_ok (texts : List PyStr) (h : ∀ t ∈ texts, Clean t) :
    ∀ i ∈ (samplePage texts).items, JsonItem (sampleEnv (pstr "FontName")) i := by
  intro i hi
  simp only [samplePage, List.mem_cons, List.not_mem_nil, or_false] at hi
  rcases hi with rfl | rfl
  · refine .xobj fun i hi => ?_
    rw [List.mem_singleton.1 hi]
    refine .text rfl fun cb hcb => ?_
    rw [List.mem_singleton.1 hcb]
    refine ⟨fun c hc => ?_, by simp [sampleEnv], fun p hp => ?_⟩
    · obtain ⟨t, ht, rfl⟩ := List.mem_map.1 hc
      exact h t ht
    · rw [List.mem_singleton.1 hp]; decide
  · exact .none

example : ∃ js, Spec.JsonText (jsonFile (sampleEnv (pstr "FontName")) [samplePage [pstr "a", pstr "\"b\""]]) (.obj [(pstr "pages", .arr js)]) :=
  let ⟨js, h, _⟩ := json_document_partial _ sampleEnv_ok [samplePage [pstr "a", pstr "\"b\""]] (by
    intro p hp; rw [List.mem_singleton.1 hp]; exact samplePage_ok _ (by decide))
  ⟨js, h⟩

example : PageShows (samplePage [pstr "a", pstr "b"]) (pstr "ab") := (pageShows_iff _ _).2 (by decide +kernel)

end Pdf
