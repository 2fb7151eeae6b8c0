import Verif.Model.Dumps
import Verif.Spec.Dumps
import Verif.Spec.ConvYaml
import Verif.Props.Text
import Verif.Props.Json
import Verif.Props.ConvJson
import Verif.Props.AttrNames
import Mathlib.Data.List.Forall2
import Mathlib.Tactic.SplitIfs
/-! The texts of colours and paths in the documents (C112). -/

namespace Pdf
open Spec (Json JsonStr Value Elems Members Means MeansAll MeansMembers units cp Number Marks ColorIs PathIs PrintableAscii XmlValue Capital Small Numeral PlainKey ValueText)

/-! ### `json.dumps` -/

theorem hexSmall_reads {n : Nat} (h : n < 16) : Spec.jsonHex (hexSmall n) = some n := by
  have key : ∀ i : Fin 16, Spec.jsonHex (hexSmall i.1) = some i.1 := by decide
  exact key ⟨n, h⟩

theorem hexEscape_reads {n : Nat} (h : n < 0x10000) {t s : PyStr} (hs : JsonStr t s) : JsonStr (hexEscape n ++ t) (n :: s) := by
  have e : n = ((n / 4096 % 16 * 16 + n / 256 % 16) * 16 + n / 16 % 16) * 16 + n % 16 := by omega
  have := JsonStr.unicode (hexSmall_reads (n := n / 4096 % 16) (by omega)) (hexSmall_reads (n := n / 256 % 16) (by omega))
    (hexSmall_reads (n := n / 16 % 16) (by omega)) (hexSmall_reads (n := n % 16) (by omega)) hs
  rw [← e] at this
  exact this

theorem jsonChar_reads {c : Nat} (h : c < 0x110000) {t s : PyStr} (hs : JsonStr t s) : JsonStr (jsonChar c ++ t) (units c ++ s) := by
  unfold jsonChar
  have small : c < 0x10000 → units c = [c] := fun h => by rw [units, if_pos h]
  split_ifs with h1 h2 h3 h4 h5 h6 h7 h8 h9
  all_goals try (rw [small (by omega)])
  · subst h1; exact .escape (by decide) hs
  · subst h2; exact .escape (by decide) hs
  · subst h3; exact .escape (by decide) hs
  · subst h4; exact .escape (by decide) hs
  · subst h5; exact .escape (by decide) hs
  · subst h6; exact .escape (by decide) hs
  · subst h7; exact .escape (by decide) hs
  · exact .plain h8.1 h1 h2 hs
  · exact hexEscape_reads h9 hs
  · rw [units, if_neg h9, List.append_assoc]
    have e : (c - 0x10000) / 1024 % 1024 = (c - 0x10000) / 1024 := by omega
    rw [e]
    exact hexEscape_reads (by omega) (hexEscape_reads (by omega) hs)

theorem jsonBody_reads {s : PyStr} (h : ∀ c ∈ s, c < 0x110000) : JsonStr (s.flatMap jsonChar) (s.flatMap units) := by
  induction s with
  | nil => exact .nil
  | cons c s ih => exact jsonChar_reads (h c (by simp)) (ih fun c hc => h c (by simp [hc]))

theorem jsonText_value {s : PyStr} (h : ∀ c ∈ s, c < 0x110000) : Value (jsonText s) (.str (s.flatMap units)) := by
  have := Value.str (jsonBody_reads h)
  exact this

mutual
/-- The text made by `json.dumps` stands for the value. -/
theorem dumps_means : ∀ {p : PyJson} {j : Json}, Means p j → Value (dumps p) j
  | _, _, .none => by rw [dumps]; exact .lit (by decide)
  | _, _, .num h => by rw [dumps]; exact .num h
  | _, _, .str h => by rw [dumps]; exact jsonText_value h
  | _, _, .list (l := []) .nil => by rw [dumps]; exact .arrEmpty (w := []) ws_nil
  | _, _, .list (l := p :: l) (.cons (js := js) (j := j) h hl) => by
    have e : dumps (.list (p :: l)) = cp "[" ++ (dumps p ++ dumpsItems l) ++ cp "]" := by
      rw [dumps]; simp only [List.append_assoc]; rfl
    rw [e]
    exact .arr (dumpsItems_means ws_nil (dumps_means h) hl)
  | _, _, .dict (l := []) .nil => by rw [dumps]; exact .objEmpty (w := []) ws_nil
  | _, _, .dict (l := (k, p) :: l) (.cons hk h hl) => by
    have e : dumps (.dict ((k, p) :: l)) = cp "{" ++ (jsonText k ++ pstr ": " ++ dumps p ++ dumpsMembers l) ++ cp "}" := by
      rw [dumps]; simp only [List.append_assoc]; rfl
    rw [e]
    exact .obj (dumpsMembers_means ws_nil hk (dumps_means h) hl)
theorem dumpsItems_means : ∀ {p : PyJson} {j : Json} {l : List PyJson} {js : List Json} {w : PyStr}, Spec.Ws w → Value (dumps p) j → MeansAll l js →
    Elems (w ++ dumps p ++ dumpsItems l) (j :: js)
  | _, _, _, _, w, hw, h, .nil => by
    have := Elems.one (w₂ := []) hw h ws_nil
    rw [dumpsItems]; exact this
  | p, _, _, _, w, hw, h, .cons (p := q) (l := l) h' hl => by
    have := Elems.more (w₂ := []) hw h ws_nil (dumpsItems_means ws_space (dumps_means h') hl)
    rw [dumpsItems]
    rw [List.append_nil] at this
    have e : ∀ a b : PyStr, cp "," ++ ([32] ++ a ++ b) = pstr ", " ++ a ++ b := fun _ _ => rfl
    rw [List.append_assoc (w ++ dumps p), e] at this
    exact this
theorem dumpsMembers_means : ∀ {k : PyStr} {p : PyJson} {j : Json} {l : List (PyStr × PyJson)} {js : List (PyStr × Json)} {w : PyStr}, Spec.Ws w →
    (∀ c ∈ k, c < 0x110000) → Value (dumps p) j → MeansMembers l js →
    Members (w ++ jsonText k ++ pstr ": " ++ dumps p ++ dumpsMembers l) ((k.flatMap units, j) :: js)
  | k, p, j, _, _, w, hw, hk, h, .nil => by
    have := Members.one (w₂ := []) (w₄ := []) hw (jsonBody_reads hk) ws_nil ws_space h ws_nil
    rw [dumpsMembers]
    have e : ∀ a b d : PyStr, a ++ cp "\"" ++ b ++ cp "\"" ++ [] ++ cp ":" ++ [32] ++ d ++ [] = a ++ (0x22 :: (b ++ [0x22])) ++ pstr ": " ++ d ++ [] := by
      intro a b d
      have c1 : cp "\"" = [0x22] := rfl
      have c2 : pstr ": " = cp ":" ++ [32] := rfl
      have c3 : pstr ", " = cp "," ++ [32] := rfl
      simp [c1, c2, c3]
    rw [e] at this
    exact this
  | k, p, j, _, _, w, hw, hk, h, .cons (k := k') (p := q) (l := l) hk' h' hl => by
    have := Members.more (w₂ := []) (w₄ := []) hw (jsonBody_reads hk) ws_nil ws_space h ws_nil (dumpsMembers_means ws_space hk' (dumps_means h') hl)
    rw [dumpsMembers]
    have e : ∀ a b d x y z : PyStr, a ++ cp "\"" ++ b ++ cp "\"" ++ [] ++ cp ":" ++ [32] ++ d ++ [] ++ cp "," ++ ([32] ++ x ++ pstr ": " ++ y ++ z) =
        a ++ (0x22 :: (b ++ [0x22])) ++ pstr ": " ++ d ++ (pstr ", " ++ x ++ pstr ": " ++ y ++ z) := by
      intro a b d x y z
      have c1 : cp "\"" = [0x22] := rfl
      have c2 : pstr ": " = cp ":" ++ [32] := rfl
      have c3 : pstr ", " = cp "," ++ [32] := rfl
      simp [c1, c2, c3]
    rw [e] at this
    exact this
end

/-! ### Colours and paths -/

theorem encText_marks (s : PyStr) : Marks (encText s) s := ⟨enc s, rfl, enc_reads s⟩

theorem byte_units (b : Bytes) : (b.map UInt8.toNat).flatMap units = b.map UInt8.toNat ∧ ∀ c ∈ b.map UInt8.toNat, c < 0x110000 := by
  have lt : ∀ c : UInt8, c.toNat < 256 := fun c => c.toNat_lt
  constructor
  · induction b with
    | nil => rfl
    | cons c b ih =>
      have := lt c
      have e : units c.toNat = [c.toNat] := by rw [units, if_pos (by omega)]
      rw [List.map_cons, List.flatMap_cons, ih, e]; rfl
  · intro c hc
    obtain ⟨x, -, rfl⟩ := List.mem_map.1 hc
    have := lt x
    omega

theorem encText_means (s : PyStr) : Means (.str (encText s)) (.str (encText s)) := by
  have h := byte_units (enc s)
  have := Means.str (s := encText s) h.2
  rwa [show (encText s).flatMap units = encText s from h.1] at this

theorem strs_means (l : List PyStr) : MeansAll ((l.map encText).map .str) ((l.map encText).map .str) := by
  induction l with
  | nil => exact .nil
  | cons s l ih => exact .cons (encText_means s) ih

theorem key_means (s : String) {p j l js} (h : Means p j) (hl : MeansMembers l js) (hs : (pstr s).flatMap units = pstr s ∧ ∀ c ∈ pstr s, c < 0x110000) :
    MeansMembers ((pstr s, p) :: l) ((pstr s, j) :: js) := by
  have := MeansMembers.cons hs.2 h hl
  rwa [hs.1] at this

theorem color_means (t : PyTexts) (cs : ColorSpace) (vs : List Obj) :
    Means (colorJson t cs vs) (.obj [(pstr "type", .str (spaceText cs)), (pstr "value", .arr ((normalizeValues t vs).map .str))]) := by
  have hv : MeansAll ((normalizeValues t vs).map .str) ((normalizeValues t vs).map .str) := by
    have := strs_means (vs.map (valueName t))
    rwa [List.map_map (f := valueName t) (g := encText)] at this
  exact .dict (key_means "type" (encText_means _) (key_means "value" (.list hv) .nil (by decide)) (by decide))

theorem coord_means {t : PyTexts} (ht : ∀ q, Number (t.fmt q)) (q : Option ℚ) :
    Means (coordJson t q) (q.elim (.lit (pstr "null")) fun x => .num (t.fmt x)) := by
  cases q with
  | none => exact .none
  | some q => exact .num (ht q)

theorem path_means {t : PyTexts} (ht : ∀ q, Number (t.fmt q)) (p : CurvePath) : ∃ j, Means (pathJson t p) j ∧ PathIs t.fmt p j := by
  refine ⟨_, ?_, rfl⟩
  have hp : MeansAll (p.points.map fun q => .dict [(pstr "x", coordJson t q.1), (pstr "y", coordJson t q.2)])
      (p.points.map fun q => .obj [(pstr "x", q.1.elim (.lit (pstr "null")) fun x => .num (t.fmt x)), (pstr "y", q.2.elim (.lit (pstr "null")) fun y => .num (t.fmt y))]) := by
    induction p.points with
    | nil => exact .nil
    | cons q l ih => exact .cons (.dict (key_means "x" (coord_means ht _) (key_means "y" (coord_means ht _) .nil (by decide)) (by decide))) ih
  have hm : Means (.str (curveMethodName p.method)) (.str (pstr (Spec.methodText p.method))) := by
    have key : ∀ m, ((curveMethodName m).flatMap units = pstr (Spec.methodText m)) ∧ ∀ c ∈ curveMethodName m, c < 0x110000 := by
      intro m; cases m <;> decide
    have := Means.str (key p.method).2
    rwa [(key p.method).1] at this
  exact .dict (key_means "type" hm (key_means "points" (.list hp) .nil (by decide)) (by decide))

theorem value_one {t : PyStr} {x y : Json} (h : Value t x) (h' : Value t y) : x = y :=
  (value_unique h h' (r := []) (s := []) (by intro c hc; cases hc) (by intro c hc; cases hc) rfl).1

/-! ## C112 -/

/-- The colour of an item in JSON: the text has one value, an object with the name of the colour space and with the texts of the values. -/
theorem color_json (t : PyTexts) (cs : ColorSpace) (vs : List Obj) :
    (∃ j, Value (t.conv.dumpColor cs vs) j) ∧
    ∀ j, Value (t.conv.dumpColor cs vs) j → ColorIs (cs.name.map UInt8.toNat) (vs.map (valueName t)) j := by
  have h := dumps_means (color_means t cs vs)
  refine ⟨⟨_, h⟩, fun j hj => ?_⟩
  rw [value_one hj h]
  refine ⟨_, _, rfl, encText_marks _, ?_⟩
  unfold normalizeValues
  rw [List.forall₂_map_left_iff, List.forall₂_map_right_iff]
  exact List.forall₂_same.2 fun v _ => encText_marks _

theorem marks_unique {t s s' : PyStr} (h : Marks t s) (h' : Marks t s') : s = s' := by
  obtain ⟨b, e, r⟩ := h
  obtain ⟨b', e', r'⟩ := h'
  have : b = b' := List.map_injective_iff.2 (fun x y h => UInt8.toNat_inj.1 h) (e.symm.trans e')
  subst this
  exact reads_unique r r'

/-- A value stands for one colour: the name and the texts of the values can be read back. -/
theorem color_read {n n' : PyStr} {vs vs' : List PyStr} {j : Json} (h : ColorIs n vs j) (h' : ColorIs n' vs' j) : n = n' ∧ vs = vs' := by
  obtain ⟨t, ts, rfl, h1, h2⟩ := h
  obtain ⟨t', ts', e, h1', h2'⟩ := h'
  simp only [Json.obj.injEq, List.cons.injEq, Prod.mk.injEq, true_and, Json.str.injEq, Json.arr.injEq, and_true] at e
  obtain ⟨rfl, e⟩ := e
  have e : ts = ts' := List.map_injective_iff.2 (fun x y h => by simpa using h) e
  subst e
  refine ⟨marks_unique h1 h1', ?_⟩
  clear h1 h1' e
  induction h2 generalizing vs' with
  | nil => cases h2'; rfl
  | cons h _ ih => cases h2' with
    | cons h' hr => rw [marks_unique h h', ih hr]

/-- Two colours with one text in the JSON document have the same colour space and the same values. -/
theorem color_distinct (t : PyTexts) {cs cs' : ColorSpace} {vs vs' : List Obj} (e : t.conv.dumpColor cs vs = t.conv.dumpColor cs' vs') :
    cs.name = cs'.name ∧ vs.map (valueName t) = vs'.map (valueName t) := by
  obtain ⟨⟨j, h⟩, h1⟩ := color_json t cs vs
  have h2 := (color_json t cs' vs').2 j (e ▸ h)
  obtain ⟨a, b⟩ := color_read (h1 j h) h2
  exact ⟨List.map_injective_iff.2 (fun x y h => UInt8.toNat_inj.1 h) a, b⟩

/-- A step of a path in JSON: its method and its points. -/
theorem path_json (t : PyTexts) (ht : ∀ q, Number (t.fmt q)) (p : CurvePath) :
    (∃ j, Value (t.conv.dumpPath p) j) ∧ ∀ j, Value (t.conv.dumpPath p) j → PathIs t.fmt p j := by
  obtain ⟨j, h, hj⟩ := path_means ht p
  exact ⟨⟨j, dumps_means h⟩, fun j' h' => value_one h' (dumps_means h) ▸ hj⟩

theorem strings_strs (k : PyStr) (l : List PyStr) : Spec.stringsAtList k (l.map .str) = [] := by
  induction l with
  | nil => rfl
  | cons s l ih => rw [List.map_cons, Spec.stringsAtList, ih]; simp [Spec.stringsAt]

/-- With texts of numbers, the converter makes JSON: what the JSON document needs (C77) is met. -/
theorem conv_json (t : PyTexts) (ht : ∀ q, Number (t.fmt q)) : Spec.JsonEnv t.conv := by
  refine ⟨ht, fun cs vs => ?_, fun p => ?_⟩
  · refine ⟨_, dumps_means (color_means t cs vs), ?_⟩
    simp only [Spec.stringsAt, Spec.stringsAtMembers, strings_strs]
    rw [if_neg (by decide)]; rfl
  · obtain ⟨j, h, hj⟩ := path_means ht p
    refine ⟨j, dumps_means h, ?_⟩
    rw [hj]
    have : ∀ l : List (Option ℚ × Option ℚ), Spec.stringsAtList (pstr "text") (l.map fun q => .obj [(pstr "x", q.1.elim (.lit (pstr "null")) fun x => .num (t.fmt x)), (pstr "y", q.2.elim (.lit (pstr "null")) fun y => .num (t.fmt y))]) = [] := by
      intro l
      induction l with
      | nil => rfl
      | cons q l ih =>
        rw [List.map_cons, Spec.stringsAtList, ih]
        rcases q with ⟨_ | x, _ | y⟩ <;> simp [Spec.stringsAt, Spec.stringsAtMembers]
    have e : ¬ pstr "type" = pstr "text" := by decide
    simp [Spec.stringsAt, Spec.stringsAtMembers, this, e]

/-- The colour of a curve under its key in the object of the curve: the name of the colour space and the texts of the values. -/
theorem color_field (t : PyTexts) {key : PyStr} {c : Color} {j : Json} (h : Spec.HasColor t.conv key c j) :
    (c.space = none → j.field key = none) ∧
    ∀ cs, c.space = some cs → ∃ v, j.field key = some v ∧ ColorIs (cs.name.map UInt8.toNat) (c.values.map (valueName t)) v := by
  refine ⟨h.1, fun cs e => ?_⟩
  obtain ⟨v, h1, h2⟩ := h.2 cs e
  exact ⟨v, h2, (color_json t cs c.values).2 v h1⟩

/-- The paths of a curve in the object of the curve, one after the other. -/
theorem paths_field (t : PyTexts) (ht : ∀ q, Number (t.fmt q)) {c : Curve} {j : Json} (h : Spec.CurveJson t.conv c j) (hk : c.kind = .curve) :
    ∃ l, j.field (pstr "paths") = some (.arr l) ∧ List.Forall₂ (PathIs t.fmt) c.paths l := by
  obtain ⟨l, h1, h2⟩ := h.paths hk
  exact ⟨l, h1, h2.imp fun p v hv => (path_json t ht p).2 v hv⟩

/-! ### XML -/

/-- `enc` of printable ASCII is the text of an attribute with this value. -/
theorem printable_xml {s : PyStr} (h : PrintableAscii s) : XmlValue (encText s) s := by
  induction s with
  | nil => exact .nil
  | cons c s ih =>
    have ih := ih fun x hx => h x (List.mem_cons_of_mem _ hx)
    obtain ⟨h0, h7⟩ := h c List.mem_cons_self
    unfold encText at ih ⊢
    rw [enc_cons, List.map_append]
    by_cases h1 : c = 0x26
    · subst h1; exact .ref (r := pstr "&amp;") (by decide) ih
    by_cases h2 : c = 0x3e
    · subst h2; exact .ref (r := pstr "&gt;") (by decide) ih
    by_cases h3 : c = 0x3c
    · subst h3; exact .ref (r := pstr "&lt;") (by decide) ih
    by_cases h4 : c = 0x22
    · subst h4; exact .ref (r := pstr "&quot;") (by decide) ih
    have e : (enc [c]).map UInt8.toNat = [c] := by
      unfold enc
      rw [escapeMarkup_plain c h1 h2 h3 h4]
      have : c < 128 := by omega
      simp [asciiCharRefs, this, UInt8.toNat_ofNat_of_lt' (show c < UInt8.size by simp [UInt8.size]; omega)]
    rw [e]
    refine .plain ?_ h0 h3 h1 h4 ih
    unfold Spec.xmlChar
    have a : decide (0x20 ≤ c) = true := by simpa using h0
    have b : ¬ (0xd800 ≤ c ∧ c ≤ 0xdfff) := by omega
    have d : c ≠ 0xfffe := by omega
    have f : c ≠ 0xffff := by omega
    simp [h0, d, f]
    omega

theorem XmlValue.append {a x b y : PyStr} (h : XmlValue a x) (h' : XmlValue b y) : XmlValue (a ++ b) (x ++ y) := by
  induction h with
  | nil => exact h'
  | plain h1 h2 h3 h4 h5 _ ih => exact .plain h1 h2 h3 h4 h5 ih
  | ref hr _ ih => rw [List.append_assoc]; exact .ref hr ih

/-- The values of a colour in an attribute: the texts with commas between them. -/
theorem values_xml (t : PyTexts) {vs : List Obj} (h : ∀ v ∈ vs, PrintableAscii (valueName t v)) :
    XmlValue (normalizeText t vs) ([','.toNat].intercalate (vs.map (valueName t))) := by
  induction vs with
  | nil => exact .nil
  | cons v vs ih =>
    have hv := printable_xml (h v List.mem_cons_self)
    have ih := ih fun x hx => h x (List.mem_cons_of_mem _ hx)
    cases vs with
    | nil => simpa [normalizeText] using hv
    | cons w vs =>
      have e : [','.toNat].intercalate ((v :: w :: vs).map (valueName t)) = valueName t v ++ (pstr "," ++ [','.toNat].intercalate ((w :: vs).map (valueName t))) := by
        simp [List.intercalate, pstr]
      rw [e]
      show XmlValue (encText (valueName t v) ++ pstr "," ++ normalizeText t (w :: vs)) _
      rw [List.append_assoc]
      exact XmlValue.append hv (XmlValue.append (.plain (by decide) (by decide) (by decide) (by decide) (by decide) .nil) ih)

/-- A colour in an XML document: the attributes with the name of the colour space and with the values, with commas between them. -/
theorem color_xml (t : PyTexts) {c : Color} (hn : ∀ cs, c.space = some cs → PrintableAscii (cs.name.map UInt8.toNat))
    (hv : ∀ v ∈ c.values, PrintableAscii (valueName t v)) : Spec.XmlColor t.conv c ∧
    ∀ cs, c.space = some cs → XmlValue (t.conv.colorName cs) (cs.name.map UInt8.toNat) ∧
      XmlValue (t.conv.colorValues c.values) ([','.toNat].intercalate (c.values.map (valueName t))) := by
  have h : ∀ cs, c.space = some cs → XmlValue (t.conv.colorName cs) (cs.name.map UInt8.toNat) ∧
      XmlValue (t.conv.colorValues c.values) ([','.toNat].intercalate (c.values.map (valueName t))) :=
    fun cs e => ⟨printable_xml (hn cs e), values_xml t hv⟩
  exact ⟨fun cs e => ⟨⟨_, (h cs e).1⟩, ⟨_, (h cs e).2⟩⟩, h⟩

/-! ### YAML -/

theorem plain_enc {s : PyStr} (h : ∀ c ∈ s, Capital c ∨ Small c ∨ Numeral c ∨ c = '.'.toNat ∨ c = '-'.toNat) : encText s = s := by
  induction s with
  | nil => rfl
  | cons c s ih =>
    have ih := ih fun x hx => h x (List.mem_cons_of_mem _ hx)
    have hc : c ≠ 0x26 ∧ c ≠ 0x3e ∧ c ≠ 0x3c ∧ c ≠ 0x22 ∧ c < 128 := by
      have := h c List.mem_cons_self
      unfold Capital Small Numeral at this
      simp only [Char.reduceToNat] at this
      omega
    unfold encText at ih ⊢
    rw [enc_cons, List.map_append, ih]
    have e : (enc [c]).map UInt8.toNat = [c] := by
      unfold enc
      rw [escapeMarkup_plain c hc.1 hc.2.1 hc.2.2.1 hc.2.2.2.1]
      simp [asciiCharRefs, hc.2.2.2.2, UInt8.toNat_ofNat_of_lt' (show c < UInt8.size by simp [UInt8.size]; omega)]
    rw [e]
    rfl

theorem plainKey_plain {s : PyStr} (h : PlainKey s) : Spec.Plain s := by
  have hall : ∀ x ∈ s, Capital x ∨ Small x ∨ Numeral x := by
    obtain ⟨a, r, rfl, ha, hr⟩ := h
    intro x hx
    rcases List.mem_cons.1 hx with rfl | hx
    · tauto
    · exact hr x hx
  have hc : ∀ x ∈ s, Spec.yamlChar x ∧ x ≠ 32 ∧ x ≠ 58 ∧ x ≠ 35 := by
    intro x hx
    have := hall x hx
    unfold Capital Small Numeral at this
    unfold Spec.yamlChar
    simp only [Char.reduceToNat] at this ⊢
    omega
  refine ⟨fun x hx => (hc x hx).1, ?_, ⟨fun e => ?_, fun e => ?_⟩, fun hi => ?_, fun hi => ?_⟩
  · obtain ⟨a, r, rfl, ha, hr⟩ := h
    have hr : a ≠ 32 ∧ a ∉ Spec.yamlIndicators ∧ a ∉ cp "-?:" := by
      unfold Capital Small at ha
      have e1 : Spec.yamlIndicators = [44, 91, 93, 123, 125, 35, 38, 42, 33, 124, 62, 39, 34, 37, 64, 96] := by decide
      have e2 : cp "-?:" = [45, 63, 58] := by decide
      rw [e1, e2]
      simp only [Char.reduceToNat] at ha
      simp only [List.mem_cons, List.not_mem_nil, or_false, not_or]
      omega
    exact ⟨a, r, rfl, hr.1, hr.2.1, fun h => absurd h hr.2.2⟩
  · exact (hc _ (List.mem_of_getLast? e)).2.1 rfl
  · exact (hc _ (List.mem_of_getLast? e)).2.2.1 rfl
  · exact (hc 58 (hi.subset (by decide))).2.2.1 rfl
  · exact (hc 35 (hi.subset (by decide))).2.2.2 rfl

/-- A colour with a plain name and values of letters, digits, dots and signs: the YAML document carries the name and the texts of the values as they are. -/
theorem colors_yaml (t : PyTexts) {c : Color} (hn : ∀ cs, c.space = some cs → PlainKey (cs.name.map UInt8.toNat))
    (hv : ∀ v ∈ c.values, ∀ x ∈ valueName t v, Capital x ∨ Small x ∨ Numeral x ∨ x = '.'.toNat ∨ x = '-'.toNat) : Spec.YamlColor t.yaml c ∧
    ∀ cs, c.space = some cs → t.yaml.colorName cs = cs.name.map UInt8.toNat ∧ c.values.map t.yaml.valueText = c.values.map (valueName t) := by
  have hval : ∀ v ∈ c.values, t.yaml.valueText v = valueName t v := fun v h => plain_enc (hv v h)
  have hname : ∀ cs, c.space = some cs → t.yaml.colorName cs = cs.name.map UInt8.toNat := by
    intro cs e
    obtain ⟨a, r, e', ha, hr⟩ := hn cs e
    show encText (cs.name.map UInt8.toNat) = _
    rw [e']
    refine plain_enc fun x hx => ?_
    rcases List.mem_cons.1 hx with rfl | hx
    · rcases ha with ha | ha
      · exact .inl ha
      · exact .inr (.inl ha)
    · rcases hr x hx with h | h | h
      · exact .inl h
      · exact .inr (.inl h)
      · exact .inr (.inr (.inl h))
  refine ⟨fun cs e => ⟨?_, fun v h => ?_⟩, fun cs e => ⟨hname cs e, List.map_congr_left fun v h => hval v h⟩⟩
  · rw [hname cs e]
    exact plainKey_plain (hn cs e)
  · rw [hval v h]
    intro x hx
    have := hv v h x hx
    unfold Capital Small Numeral at this
    unfold Spec.yamlChar
    simp only [Char.reduceToNat] at this ⊢
    omega

/-! ### The texts of the values -/

theorem numText_digits (n : Nat) : Spec.DigitsOf n (numText n) := by
  obtain ⟨h1, h2, h3⟩ := decimal_facts n
  refine ⟨⟨decimal n, rfl, h1, h2, h3⟩, fun e => ?_⟩
  by_cases h : n = 0
  · subst h; decide +kernel
  · exact absurd e (decimal_head n h)

theorem valueName_text (t : PyTexts) {v : Obj} (h : Spec.ColorValue v) : ValueText t.fmt v (valueName t v) := by
  cases v with
  | name n =>
    have hn : ∀ c ∈ n, c.toNat < 128 := h
    have e : valueName t (.name n) = n.map UInt8.toNat := by
      unfold valueName
      exact if_pos (List.all_eq_true.2 fun c hc => decide_eq_true (hn c hc))
    rw [e]
    exact .name hn
  | int n =>
    show ValueText t.fmt (.int n) (intDigits n)
    unfold intDigits
    split
    · rename_i hneg
      obtain ⟨k, rfl⟩ : ∃ k : Nat, n = -((k : Int) + 1) := ⟨n.natAbs - 1, by omega⟩
      have : (-((k : Int) + 1)).natAbs = k + 1 := by omega
      rw [this]
      exact .neg (numText_digits _)
    · obtain ⟨k, rfl⟩ : ∃ k : Nat, n = k := ⟨n.natAbs, by omega⟩
      exact .pos (numText_digits _)
  | real m k => exact .real
  | _ => exact h.elim

theorem byteMap_inj {a b : Bytes} (h : a.map UInt8.toNat = b.map UInt8.toNat) : a = b :=
  List.map_injective_iff.2 (fun _ _ h => UInt8.toNat_inj.1 h) h

/-- The text of an integer has one value. -/
theorem intText_inj {fmt : ℚ → PyStr} {m n : Int} {s : PyStr} (h : ValueText fmt (.int m) s) (h' : ValueText fmt (.int n) s) : m = n := by
  have uniq : ∀ {a b : Nat} {s : PyStr}, Spec.DigitsOf a s → Spec.DigitsOf b s → a = b := by
    intro a b s ha hb
    obtain ⟨x, e, _, _, hx⟩ := ha.digits
    obtain ⟨y, e', _, _, hy⟩ := hb.digits
    rw [← hx, ← hy, byteMap_inj (e.symm.trans e')]
  have sign : ∀ {a : Nat} {s : PyStr}, ¬ Spec.DigitsOf a ('-'.toNat :: s) := by
    intro a s ha
    obtain ⟨x, e, _, hd, _⟩ := ha.digits
    cases x with
    | nil => cases e
    | cons d x =>
      simp only [List.map_cons, List.cons.injEq] at e
      have := hd d List.mem_cons_self
      rw [← e.1] at this
      revert this
      decide
  generalize e1 : Obj.int m = v at h
  generalize e2 : Obj.int n = w at h'
  cases h with
  | name _ => cases e1
  | real => cases e1
  | pos ha => cases h' with
    | name _ => cases e2
    | real => cases e2
    | pos hb => cases e1; cases e2; rw [uniq ha hb]
    | neg hb => exact (sign ha).elim
  | neg ha => 
    generalize e3 : '-'.toNat :: _ = s' at h'
    cases h' with
    | name _ => cases e2
    | real => cases e2
    | pos hb => subst e3; exact (sign hb).elim
    | neg hb => cases e1; cases e2; cases e3; have := uniq ha hb; omega

/-- **C112 for the values that colours have.** Numbers and ASCII names, with their texts: as an object in JSON, with commas between them in XML. -/
theorem color_texts (t : PyTexts) (cs : ColorSpace) {vs : List Obj} (h : ∀ v ∈ vs, Spec.ColorValue v) : ∃ texts, List.Forall₂ (ValueText t.fmt) vs texts ∧
    (∃ j, Value (t.conv.dumpColor cs vs) j) ∧ (∀ j, Value (t.conv.dumpColor cs vs) j → ColorIs (cs.name.map UInt8.toNat) texts j) ∧
    ((∀ s ∈ texts, PrintableAscii s) → XmlValue (t.conv.colorValues vs) ([','.toNat].intercalate texts)) := by
  refine ⟨vs.map (valueName t), ?_, (color_json t cs vs).1, (color_json t cs vs).2, fun hp => values_xml t fun v hv => hp _ (List.mem_map_of_mem hv)⟩
  rw [List.forall₂_map_right_iff]
  exact List.forall₂_same.2 fun v hv => valueName_text t (h v hv)

/-! ### Only printable ASCII -/

theorem hexEscape_printable (n : Nat) : PrintableAscii (hexEscape n) := by
  have h : ∀ k, 0x20 ≤ hexSmall (k % 16) ∧ hexSmall (k % 16) ≤ 0x7e := by
    intro k
    have : k % 16 < 16 := Nat.mod_lt _ (by decide)
    generalize k % 16 = m at *
    revert m
    decide
  intro c hc
  simp only [hexEscape, List.mem_cons, List.not_mem_nil, or_false] at hc
  rcases hc with rfl | rfl | rfl | rfl | rfl | rfl
  · decide
  · decide
  · exact h _
  · exact h _
  · exact h _
  · exact h _

theorem jsonChar_printable (c : Nat) : PrintableAscii (jsonChar c) := by
  unfold jsonChar
  split_ifs with h1 h2 h3 h4 h5 h6 h7 h8 h9
  all_goals first
    | exact hexEscape_printable _
    | (intro x hx; rw [List.mem_singleton] at hx; subst hx; exact h8)
    | (intro x hx
       rcases List.mem_append.1 hx with hx | hx
       · exact hexEscape_printable _ x hx
       · exact hexEscape_printable _ x hx)
    | (unfold PrintableAscii; decide)

theorem jsonText_printable (s : PyStr) : PrintableAscii (jsonText s) := by
  intro x hx
  rcases List.mem_cons.1 hx with rfl | hx
  · decide
  rcases List.mem_append.1 hx with hx | hx
  · obtain ⟨c, _, hc⟩ := List.mem_flatMap.1 hx
    exact jsonChar_printable c x hc
  · rw [List.mem_singleton] at hx; subst hx; decide

theorem Spec.PrintableAscii.and {a b : PyStr} (ha : PrintableAscii a) (hb : PrintableAscii b) : PrintableAscii (a ++ b) := by
  intro x hx
  rcases List.mem_append.1 hx with hx | hx
  · exact ha x hx
  · exact hb x hx

mutual
theorem dumps_printable : ∀ (v : PyJson), Spec.NumsPrintable v → PrintableAscii (dumps v)
  | .none, _ => by unfold PrintableAscii; decide
  | .num t, h => h
  | .str s, _ => jsonText_printable s
  | .list [], _ => by unfold PrintableAscii; decide
  | .list (v :: l), h => by
    rw [dumps]
    exact .and (.and (.and (by unfold PrintableAscii; decide) (dumps_printable v h.1)) (dumpsItems_printable l h.2)) (by unfold PrintableAscii; decide)
  | .dict [], _ => by unfold PrintableAscii; decide
  | .dict ((k, v) :: l), h => by
    rw [dumps]
    exact .and (.and (.and (.and (.and (by unfold PrintableAscii; decide) (jsonText_printable k)) (by unfold PrintableAscii; decide)) (dumps_printable v h.1))
      (dumpsMembers_printable l h.2)) (by unfold PrintableAscii; decide)
theorem dumpsItems_printable : ∀ (l : List PyJson), Spec.NumsPrintables l → PrintableAscii (dumpsItems l)
  | [], _ => by unfold PrintableAscii; decide
  | v :: l, h => by
    rw [dumpsItems]
    exact .and (.and (by unfold PrintableAscii; decide) (dumps_printable v h.1)) (dumpsItems_printable l h.2)
theorem dumpsMembers_printable : ∀ (l : List (PyStr × PyJson)), Spec.NumsPrintableMembers l → PrintableAscii (dumpsMembers l)
  | [], _ => by unfold PrintableAscii; decide
  | (k, v) :: l, h => by
    rw [dumpsMembers]
    exact .and (.and (.and (.and (by unfold PrintableAscii; decide) (jsonText_printable k)) (by unfold PrintableAscii; decide)) (dumps_printable v h.1)) (dumpsMembers_printable l h.2)
end

/-- **C112.** Colours and paths are written in printable ASCII, whatever characters the names have; quotes, backslashes and other characters are escaped. -/
theorem color_printable (t : PyTexts) (cs : ColorSpace) (vs : List Obj) : PrintableAscii (t.conv.dumpColor cs vs) := by
  refine dumps_printable _ ⟨trivial, ?_, trivial⟩
  show Spec.NumsPrintables _
  generalize normalizeValues t vs = l
  induction l with
  | nil => trivial
  | cons v l ih => exact ⟨trivial, ih⟩

theorem path_printable (t : PyTexts) (ht : ∀ q, PrintableAscii (t.fmt q)) (p : CurvePath) : PrintableAscii (t.conv.dumpPath p) := by
  have hc : ∀ q, Spec.NumsPrintable (coordJson t q) := by
    intro q
    cases q with
    | none => trivial
    | some q => exact ht q
  refine dumps_printable _ ⟨trivial, ?_, trivial⟩
  show Spec.NumsPrintables _
  generalize p.points = l
  induction l with
  | nil => trivial
  | cons v l ih => exact ⟨⟨hc _, hc _, trivial⟩, ih⟩

/-! ### The attributes of fonts -/

theorem keyWords_plain {ws : List PyStr} (h : ∀ w ∈ ws, Spec.KeyWord w) (hn : ws ≠ []) : PlainKey ws.flatten := by
  cases ws with
  | nil => exact absurd rfl hn
  | cons w ws =>
    obtain ⟨u, l, rfl, hu, _, hl⟩ := h w (by simp)
    refine ⟨u, l ++ ws.flatten, rfl, .inl hu, fun x hx => ?_⟩
    rcases List.mem_append.1 hx with hx | hx
    · exact .inr (.inl (hl x hx))
    · obtain ⟨w, hw, hx⟩ := List.mem_flatten.1 hx
      obtain ⟨u, l, rfl, hu, _, hl⟩ := h w (by simp [hw])
      rcases List.mem_cons.1 hx with rfl | hx
      · exact .inl hu
      · exact .inr (.inl (hl x hx))

theorem keyWords_digit {ws : List PyStr} (h : ∀ w ∈ ws, Spec.KeyWord w) : 48 ∉ Spec.hyphened ws ∧ 49 ∉ Spec.hyphened ws := by
  have key : ∀ x, x ∈ Spec.hyphened ws → x = 45 ∨ 97 ≤ x := by
    intro x hx
    rcases hyphened_mem hx with rfl | ⟨c, hc, rfl⟩
    · exact .inl rfl
    · right
      obtain ⟨w, hw, hc⟩ := List.mem_flatten.1 hc
      obtain ⟨u, l, rfl, hu, _, hl⟩ := h w hw
      have : Capital c ∨ Small c := by
        rcases List.mem_cons.1 hc with rfl | hc
        · exact .inl hu
        · exact .inr (hl c hc)
      unfold Spec.smallOf
      rcases this with ⟨h1, h2⟩ | ⟨h1, h2⟩
      · rw [if_pos ⟨h1, h2⟩]
        have : 'A'.toNat ≤ c := h1
        have e : 'a'.toNat = 97 := rfl
        omega
      · rw [if_neg]
        · exact h1
        · rintro ⟨_, h3⟩
          have e : 'Z'.toNat = 90 := rfl
          have e2 : 'a'.toNat = 97 := rfl
          omega
  exact ⟨fun h => by have := key _ h; omega, fun h => by have := key _ h; omega⟩

/-- **C111 in the XML document.** For a font descriptor with such keys the attributes of a char-block are well formed, and every entry that is not left out is there under
the words of its key in small letters, with hyphens between them. -/
theorem block_attributes (t : PyTexts) {b : CharBlock} (hk : Spec.FontKeys (t.descriptor b.font)) (ht : ∀ c ∈ b.chars, ∀ x ∈ c.1, Spec.xmlChar x = true)
    (hc : Spec.XmlColor t.conv b.color) : Spec.XmlBlock t.conv b ∧ ∃ attrs tags, Spec.blockTags t.conv b = (pstr "char-block", attrs) :: tags ∧
      ∀ p ∈ t.descriptor b.font, ¬ Spec.leftOut p.1 → ∀ ws, Spec.WordsOf p.1 ws → (Spec.hyphened ws, p.2) ∈ attrs := by
  refine ⟨⟨ht, hc, fun p hp => ?_, ?_, fun p hp => ?_⟩, _, _, rfl, fun p hp hl ws hw => ?_⟩
  · obtain ⟨ws, h1, h2, h3⟩ := hk.words p hp
    refine ⟨?_, hk.values p hp⟩
    show Spec.XmlName (snakeCase p.1)
    rw [h3]
    exact snake_name (keyWords_plain h2 h1)
  · show ((t.descriptor b.font).map fun p => snakeCase p.1).Nodup
    have hw := hk.words
    have ho := hk.once
    clear hk
    generalize t.descriptor b.font = l at *
    induction l with
    | nil => simp
    | cons p l ih =>
      rw [List.map_cons, List.nodup_cons] at ho ⊢
      refine ⟨fun hm => ?_, ih (fun q hq => hw q (by simp [hq])) ho.2⟩
      obtain ⟨q, hq, e⟩ := List.mem_map.1 hm
      obtain ⟨ws, h1, h2, h3⟩ := hw p (by simp)
      obtain ⟨vs, g1, g2, g3⟩ := hw q (by simp [hq])
      rw [h3, g3] at e
      have := snake_distinct g2 h2 e
      exact ho.1 (List.mem_map.2 ⟨q, hq, by rw [g3, h3, this]⟩)
  · obtain ⟨ws, h1, h2, h3⟩ := hk.words p hp
    show snakeCase p.1 ∉ _
    rw [h3, snake_keyWords h2]
    obtain ⟨d0, d1⟩ := keyWords_digit h2
    have ho := hk.other p hp
    have word : ∀ vs : List PyStr, (∀ w ∈ vs, Spec.KeyWord w) → vs.flatten ∈ [pstr "Size", pstr "ColorType", pstr "ColorValues"] → Spec.hyphened ws ≠ Spec.hyphened vs := by
      intro vs hv hm e
      have := hyphened_inj h2 hv e
      rw [h3, this] at ho
      exact ho hm
    have kw : ∀ u l, Capital u → l ≠ [] → (∀ c ∈ l, Small c) → Spec.KeyWord (u :: l) := fun u l a b c => ⟨u, l, rfl, a, b, c⟩
    have k1 : Spec.KeyWord (pstr "Size") := kw _ _ (by unfold Capital; decide) (by decide) (by unfold Small; decide)
    have k2 : Spec.KeyWord (pstr "Color") := kw _ _ (by unfold Capital; decide) (by decide) (by unfold Small; decide)
    have k3 : Spec.KeyWord (pstr "Type") := kw _ _ (by unfold Capital; decide) (by decide) (by unfold Small; decide)
    have k4 : Spec.KeyWord (pstr "Values") := kw _ _ (by unfold Capital; decide) (by decide) (by unfold Small; decide)
    intro hm
    simp only [List.mem_cons, List.not_mem_nil, or_false] at hm
    rcases hm with e | e | e | e | e | e | e
    · exact word [pstr "Size"] (by simpa using k1) (by decide) e
    · rw [e] at d0; exact d0 (by decide)
    · rw [e] at d1; exact d1 (by decide)
    · rw [e] at d0; exact d0 (by decide)
    · rw [e] at d1; exact d1 (by decide)
    · exact word [pstr "Color", pstr "Type"] (by simpa using ⟨k2, k3⟩) (by decide) e
    · exact word [pstr "Color", pstr "Values"] (by simpa using ⟨k2, k4⟩) (by decide) e
  · refine List.mem_append_right _ (List.mem_map.2 ⟨p, List.mem_filter.2 ⟨hp, by simpa using hl⟩, ?_⟩)
    show (snakeCase p.1, p.2) = _
    rw [snake_words hw]

/-! ### Examples -/

example : Spec.FontKeys [(pstr "FontName", pstr "Helvetica"), (pstr "Ascent", pstr "718")] where
  words := by
    intro p hp
    simp only [List.mem_cons, List.not_mem_nil, or_false] at hp
    rcases hp with rfl | rfl
    · refine ⟨[pstr "Font", pstr "Name"], by simp, ?_, by decide⟩
      intro w hw
      simp only [List.mem_cons, List.not_mem_nil, or_false] at hw
      rcases hw with rfl | rfl
      · exact ⟨_, _, rfl, by unfold Capital; decide, by decide, by unfold Small; decide⟩
      · exact ⟨_, _, rfl, by unfold Capital; decide, by decide, by unfold Small; decide⟩
    · refine ⟨[pstr "Ascent"], by simp, ?_, by decide⟩
      intro w hw
      rw [List.mem_singleton] at hw
      subst hw
      exact ⟨_, _, rfl, by unfold Capital; decide, by decide, by unfold Small; decide⟩
  values := by
    intro p hp
    simp only [List.mem_cons, List.not_mem_nil, or_false] at hp
    rcases hp with rfl | rfl
    · have := printable_xml (s := pstr "Helvetica") (by unfold PrintableAscii; decide +kernel)
      rw [show encText (pstr "Helvetica") = pstr "Helvetica" by decide +kernel] at this
      exact ⟨_, this⟩
    · have := printable_xml (s := pstr "718") (by unfold PrintableAscii; decide +kernel)
      rw [show encText (pstr "718") = pstr "718" by decide +kernel] at this
      exact ⟨_, this⟩
  once := by decide
  other := by decide

example : Spec.ColorValue (.int 255) ∧ Spec.ColorValue (.real 5 1) ∧ Spec.ColorValue (.name (asc "P1")) :=
  ⟨trivial, trivial, by show ∀ c ∈ asc "P1", c.toNat < 128; decide +kernel⟩

/-- Texts for the examples. -/
def sampleTexts : PyTexts where
  fmt := fun q => if q = 1 / 2 then pstr "0.5" else pstr "12.0"
  descriptor := fun _ => []
  imageName := fun _ _ => pstr "img"
  other := fun _ => pstr "None"

def sampleDeviceRgb : ColorSpace := ⟨asc "DeviceRGB", .int 3⟩

example : ∃ j, Value (pstr "{\"type\": \"DeviceRGB\", \"value\": [\"255\", \"127\", \"0\"]}") j ∧ ColorIs (pstr "DeviceRGB") [pstr "255", pstr "127", pstr "0"] j := by
  obtain ⟨⟨j, h⟩, h2⟩ := color_json sampleTexts sampleDeviceRgb [.int 255, .int 127, .int 0]
  have e1 : sampleTexts.conv.dumpColor sampleDeviceRgb [.int 255, .int 127, .int 0] = pstr "{\"type\": \"DeviceRGB\", \"value\": [\"255\", \"127\", \"0\"]}" := by decide +kernel
  have e2 : sampleDeviceRgb.name.map UInt8.toNat = pstr "DeviceRGB" := by decide +kernel
  have e3 : [Obj.int 255, .int 127, .int 0].map (valueName sampleTexts) = [pstr "255", pstr "127", pstr "0"] := by decide +kernel
  have h3 := h2 j h
  rw [e2, e3] at h3
  exact ⟨j, e1 ▸ h, h3⟩

/-- A pattern with a name, `/P1`. -/
example : sampleTexts.conv.dumpColor ⟨asc "Pattern", .int 1⟩ [.real 5 1, .name (asc "P1")] = pstr "{\"type\": \"Pattern\", \"value\": [\"0.5\", \"P1\"]}" := by decide +kernel

example : sampleTexts.conv.dumpPath ⟨.lineTo, [(some (1 / 2), some 12)]⟩ = pstr "{\"type\": \"LINE_TO\", \"points\": [{\"x\": 0.5, \"y\": 12.0}]}" := by decide +kernel

example : Spec.XmlColor sampleTexts.conv ⟨some sampleDeviceRgb, [.int 255, .int 127, .int 0]⟩ ∧
    XmlValue (sampleTexts.conv.colorValues [.int 255, .int 127, .int 0]) (pstr "255,127,0") := by
  have h := color_xml sampleTexts (c := ⟨some sampleDeviceRgb, [.int 255, .int 127, .int 0]⟩)
    (by intro cs e; cases e; unfold PrintableAscii; decide +kernel)
    (by intro v hv; simp only [List.mem_cons, List.not_mem_nil, or_false] at hv; rcases hv with rfl | rfl | rfl <;> (unfold PrintableAscii; decide +kernel))
  have e : [','.toNat].intercalate ([Obj.int 255, .int 127, .int 0].map (valueName sampleTexts)) = pstr "255,127,0" := by decide +kernel
  have h2 := (h.2 _ rfl).2
  rw [e] at h2
  exact ⟨h.1, h2⟩

example : Spec.YamlColor sampleTexts.yaml ⟨some sampleDeviceRgb, [.int 255, .int 127, .int 0]⟩ :=
  (colors_yaml sampleTexts (c := ⟨some sampleDeviceRgb, [.int 255, .int 127, .int 0]⟩)
    (by
      intro cs e; cases e
      exact ⟨'D'.toNat, pstr "eviceRGB", by decide +kernel, .inl (by unfold Capital; decide), by unfold Capital Small Numeral; decide⟩)
    (by
      intro v hv
      simp only [List.mem_cons, List.not_mem_nil, or_false] at hv
      rcases hv with rfl | rfl | rfl <;> (unfold Capital Small Numeral; decide +kernel))).1

end Pdf
