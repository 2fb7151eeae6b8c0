import Verif.Spec.Xml
import Verif.Props.Json
import Mathlib.Tactic.SplitIfs
/-! Property C50: the XML and HTML writers. -/

namespace Pdf

open Spec (XmlContent XmlEvent XmlAttrs XmlValue XmlName WritesXml WritesAttrs xmlChar xmlRefs chars)

theorem xmlContent_append {a b : PyStr} {e e' : List XmlEvent} (h : XmlContent a e) (h' : XmlContent b e') : XmlContent (a ++ b) (e ++ e') := by
  induction h with
  | nil => exact h'
  | char h1 h2 h3 h4 _ ih => exact .char h1 h2 h3 h4 ih
  | ref h1 _ ih => rw [List.append_assoc]; exact .ref h1 ih
  | element k h1 h2 h3 hb ht _ iht =>
    have := XmlContent.element k h1 h2 h3 hb iht
    simpa only [List.append_assoc, List.cons_append] using this
  | empty k h1 h2 h3 ht iht =>
    have := XmlContent.empty k h1 h2 h3 iht
    simpa only [List.append_assoc, List.cons_append] using this

theorem xmlContent_spaces (n : Nat) : XmlContent (xIndent n) (Spec.indentation n) := by
  unfold xIndent Spec.indentation chars
  induction n with
  | zero => exact .nil
  | succ n ih => exact .char (by decide) (by decide) (by decide) (by decide) ih

theorem xmlContent_lineEnd : XmlContent [0x0a] Spec.lineEnd := .char (by decide) (by decide) (by decide) (by decide) .nil

theorem xAttrs_cons {l l' : List (PyStr × PyStr)} (h : WritesAttrs l l') :
    (l' = [] ∧ xAttrs l = []) ∨ XmlAttrs ([0x20] ++ xAttrs l) l' := by
  induction h with
  | nil => exact .inl ⟨rfl, rfl⟩
  | cons hn hv hl ih =>
    rename_i n t v l l'
    right
    cases l with
    | nil =>
      cases hl
      have := XmlAttrs.cons 0 hn hv .nil
      have e : [0x20] ++ xAttrs [(n, t)] = List.replicate (0 + 1) ' '.toNat ++ n ++ pstr "=\"" ++ t ++ pstr "\"" ++ [] := by
        simp [xAttrs, pstr]
      rw [e]; exact this
    | cons a rest =>
      rcases ih with ⟨rfl, _⟩ | ih
      · cases hl
      · have := XmlAttrs.cons 0 hn hv ih
        have e : [0x20] ++ xAttrs ((n, t) :: a :: rest) =
            List.replicate (0 + 1) ' '.toNat ++ n ++ pstr "=\"" ++ t ++ pstr "\"" ++ ([0x20] ++ xAttrs (a :: rest)) := by
          simp [xAttrs, pstr]
        rw [e]; exact this

theorem xAttrs_tag {l l' : List (PyStr × PyStr)} (h : WritesAttrs l l') :
    ∃ at' k, XmlAttrs at' l' ∧ [0x20] ++ xAttrs l = at' ++ List.replicate k ' '.toNat := by
  rcases xAttrs_cons h with ⟨rfl, e⟩ | h
  · exact ⟨[], 1, .nil, by rw [e]; rfl⟩
  · exact ⟨_, 0, h, by simp⟩

/-- **C50 (partial).** What any tree of calls writes, at any level of nesting, is well-formed XML content that stands for the elements,
attributes and texts of the calls, when names are XML names, an element has no attribute twice, and the texts and attribute values handed to
the writer are themselves well-formed. -/
theorem xml_writer_partial (level : Nat) (calls : XBody) (events : List XmlEvent) (h : WritesXml level calls events) :
    XmlContent (xWrite level calls) events := by
  induction h with
  | nil => rw [xWrite]; exact .nil
  | raw ht _ ih =>
    rw [xWrite, xWriteNode]
    exact xmlContent_append ht ih
  | text ht _ ih =>
    rw [xWrite, xWriteNode]
    exact xmlContent_append (xmlContent_append (xmlContent_append (xmlContent_spaces _) ht) xmlContent_lineEnd) ih
  | elm hn ha hd _ _ ihb ih =>
    rename_i n tag attrs as bare nol body e b e' _ _
    obtain ⟨at', k, hat, eat⟩ := xAttrs_tag ha
    rw [xWrite, xWriteNode]
    have hl : XmlContent (if bare then [] else [0x0a]) (if bare then [] else Spec.lineEnd) := by
      split
      · exact .nil
      · exact xmlContent_lineEnd
    have hi : XmlContent (if bare then [] else xIndent n) (if bare then [] else Spec.indentation n) := by
      split
      · exact .nil
      · exact xmlContent_spaces n
    have hr : XmlContent (if nol then [] else [0x0a]) (if nol then [] else Spec.lineEnd) := by
      split
      · exact .nil
      · exact xmlContent_lineEnd
    have := xmlContent_append (xmlContent_spaces n)
      (XmlContent.element k hn hat hd (xmlContent_append hl (xmlContent_append ihb hi)) (xmlContent_append hr ih))
    have e1 : xIndent n ++ ([0x3c] ++ tag ++ [0x20] ++ xAttrs attrs ++ [0x3e]) ++ (if bare then [] else [0x0a]) ++ xWrite (n + 1) body ++
        (if bare then [] else xIndent n) ++ ([0x3c, 0x2f] ++ tag ++ [0x3e]) ++ (if nol then [] else [0x0a]) ++ xWrite n b =
        xIndent n ++ (pstr "<" ++ tag ++ at' ++ List.replicate k ' '.toNat ++ pstr ">" ++
          ((if bare then [] else [0x0a]) ++ (xWrite (n + 1) body ++ if bare then [] else xIndent n)) ++ pstr "</" ++ tag ++ pstr ">" ++
          ((if nol then [] else [0x0a]) ++ xWrite n b)) := by
      have p1 : pstr "<" = [0x3c] := rfl
      have p2 : pstr ">" = [0x3e] := rfl
      have p3 : pstr "</" = [0x3c, 0x2f] := rfl
      rw [p1, p2, p3]
      generalize (if bare then [] else [0x0a]) = A
      generalize (if bare then [] else xIndent n) = B
      generalize (if nol then [] else [0x0a]) = C
      have e2 : [0x3c] ++ tag ++ [0x20] ++ xAttrs attrs ++ [0x3e] = [0x3c] ++ tag ++ ([0x20] ++ xAttrs attrs) ++ [0x3e] := by simp
      rw [e2, eat]
      simp only [List.append_assoc]
    rw [e1]
    have e3 : Spec.indentation n ++ [XmlEvent.start tag as] ++ (if bare then [] else Spec.lineEnd) ++ e ++
        (if bare then [] else Spec.indentation n) ++ [XmlEvent.stop tag] ++ (if nol then [] else Spec.lineEnd) ++ e' =
        Spec.indentation n ++ (XmlEvent.start tag as ::
          ((if bare then [] else Spec.lineEnd) ++ (e ++ if bare then [] else Spec.indentation n)) ++
          XmlEvent.stop tag :: ((if nol then [] else Spec.lineEnd) ++ e')) := by
      generalize (if bare then [] else Spec.lineEnd) = A
      generalize (if bare then [] else Spec.indentation n) = B
      generalize (if nol then [] else Spec.lineEnd) = C
      simp
    rw [e3]; exact this
  | single hn ha hd _ ih =>
    rename_i n tag attrs as b e' _
    obtain ⟨at', k, hat, eat⟩ := xAttrs_tag ha
    rw [xWrite, xWriteNode]
    have := xmlContent_append (xmlContent_spaces n)
      (XmlContent.empty (k + 1) hn hat hd (xmlContent_append xmlContent_lineEnd ih))
    have e1 : xIndent n ++ ([0x3c] ++ tag ++ [0x20] ++ xAttrs attrs ++ [0x20, 0x2f, 0x3e]) ++ [0x0a] ++ xWrite n b =
        xIndent n ++ (pstr "<" ++ tag ++ at' ++ List.replicate (k + 1) ' '.toNat ++ pstr "/>" ++ ([0x0a] ++ xWrite n b)) := by
      have p1 : pstr "<" = [0x3c] := rfl
      have p2 : pstr "/>" = [0x2f, 0x3e] := rfl
      have p3 : [0x20, 0x2f, 0x3e] = [0x20] ++ ([0x2f, 0x3e] : PyStr) := rfl
      rw [p1, p2, p3]
      have e2 : [0x3c] ++ tag ++ [0x20] ++ xAttrs attrs ++ ([0x20] ++ [0x2f, 0x3e]) =
          [0x3c] ++ tag ++ ([0x20] ++ xAttrs attrs) ++ ([0x20] ++ [0x2f, 0x3e]) := by simp
      rw [e2, eat, List.replicate_succ']
      simp only [List.append_assoc]
      rfl
    rw [e1]
    have e3 : Spec.indentation n ++ [XmlEvent.start tag as, XmlEvent.stop tag] ++ Spec.lineEnd ++ e' =
        Spec.indentation n ++ (XmlEvent.start tag as :: XmlEvent.stop tag :: (Spec.lineEnd ++ e')) := by simp
    rw [e3]; exact this

/-! ### Escaped texts -/

theorem saxEscape_cons (c : Nat) (cs : PyStr) :
    saxEscape (c :: cs) =
      (if c = 0x26 then pstr "&amp;" else if c = 0x3e then pstr "&gt;" else if c = 0x3c then pstr "&lt;" else [c]) ++ saxEscape cs := by
  unfold saxEscape
  have rc : ∀ (x : Nat) (t : PyStr) (a b : PyStr), replaceChar x t (a ++ b) = replaceChar x t a ++ replaceChar x t b := by
    intro x t a b; unfold replaceChar; simp
  have h1 : replaceChar 0x26 (pstr "&amp;") (c :: cs) = (if c = 0x26 then pstr "&amp;" else [c]) ++ replaceChar 0x26 (pstr "&amp;") cs := rfl
  rw [h1, rc, rc]
  congr 1
  by_cases a : c = 0x26
  · subst a; decide
  · rw [if_neg a, if_neg a]
    by_cases b : c = 0x3e
    · subst b; decide
    · have h2 : replaceChar 0x3e (pstr "&gt;") [c] = [c] := by simp [replaceChar, b]
      rw [h2, if_neg b]
      by_cases d : c = 0x3c
      · subst d; decide
      · simp [replaceChar, d]

/-- The text of any characters of XML, escaped, stands for exactly these characters: no tag, no reference, no loss. -/
theorem xml_escaped_text (s : PyStr) (h : ∀ c ∈ s, xmlChar c = true) : XmlContent (saxEscape s) (chars s) := by
  induction s with
  | nil => exact .nil
  | cons c cs ih =>
    have ih := ih (fun c h' => h c (List.mem_cons_of_mem _ h'))
    rw [saxEscape_cons]
    show XmlContent _ (XmlEvent.char c :: chars cs)
    split_ifs with a b d
    · subst a; exact .ref (by decide) ih
    · subst b; exact .ref (by decide) ih
    · subst d; exact .ref (by decide) ih
    · exact .char (h c List.mem_cons_self) d b a ih

/-! ### A text stands for at most one content -/

/-- What follows content: nothing, or the start of an end tag. -/
def XStop (r : PyStr) : Prop := r = [] ∨ ∃ r', r = 0x3c :: 0x2f :: r'

/-- What follows the attributes of a tag: spaces and then `>` or `/`. -/
def XTail (r : PyStr) : Prop := ∃ k c r', r = List.replicate k 0x20 ++ c :: r' ∧ (c = 0x3e ∨ c = 0x2f)

theorem xmlName_chars {n : PyStr} (h : XmlName n) : ∀ c ∈ n, Spec.nameChar c = true := by
  obtain ⟨c, r, rfl, h1, h2⟩ := h
  intro x hx
  rcases List.mem_cons.1 hx with rfl | hx
  · unfold Spec.nameChar; rw [h1]; rfl
  · exact h2 x hx

theorem ref_head {r : PyStr} {c : Nat} (h : (r, c) ∈ xmlRefs) : ∃ r', r = 0x26 :: r' := by
  have : ∀ p ∈ xmlRefs, p.1.head? = some 0x26 := by decide
  have h := this _ h
  cases r with
  | nil => cases h
  | cons x r' => simp at h; exact ⟨r', by rw [h]⟩

theorem ref_unique {r r' : PyStr} {c c' : Nat} {a b : PyStr} (h : (r, c) ∈ xmlRefs) (h' : (r', c') ∈ xmlRefs) (e : r ++ a = r' ++ b) :
    r = r' ∧ c = c' ∧ a = b := by
  have pre : ∀ p ∈ xmlRefs, ∀ q ∈ xmlRefs, (p.1.takeWhile fun x => x != 0x3b) = (q.1.takeWhile fun x => x != 0x3b) → p = q := by decide
  have tk : ∀ p ∈ xmlRefs, p.1 = (p.1.takeWhile fun x => x != 0x3b) ++ [0x3b] := by decide
  have hall : ∀ (l : PyStr), ∀ x ∈ l.takeWhile (fun x => x != 0x3b), (fun x : Nat => x != 0x3b) x = true := by
    intro l x hx
    exact List.all_takeWhile (p := fun x : Nat => x != 0x3b) (l := l) |> List.all_eq_true.1 |> fun f => f x hx
  have e1 := tk _ h
  have e2 := tk _ h'
  dsimp only at e1 e2
  rw [e1, e2, List.append_assoc, List.append_assoc] at e
  obtain ⟨u, v⟩ := run_unique (p := fun x : Nat => x != 0x3b) (hall r) (hall r') (by intro c hc; simp at hc; rw [← hc]; rfl)
    (by intro c hc; simp at hc; rw [← hc]; rfl) e
  have := pre _ h _ h' u
  cases this
  exact ⟨rfl, rfl, by simpa using v⟩

theorem xmlValue_unique {t t' v v' r r' : PyStr} (h : XmlValue t v) (h' : XmlValue t' v') (e : t ++ 0x22 :: r = t' ++ 0x22 :: r') :
    t = t' ∧ v = v' ∧ r = r' := by
  induction h generalizing t' v' with
  | nil =>
    cases h' with
    | nil => simp at e; exact ⟨rfl, rfl, e⟩
    | plain h1 h2 h3 h4 h5 _ => simp at e; exact absurd e.1.symm h5
    | ref hm _ =>
      obtain ⟨x, rfl⟩ := ref_head hm
      simp at e
  | plain h1 h2 h3 h4 h5 _ ih =>
    cases h' with
    | nil => simp at e; exact absurd e.1 h5
    | plain k1 k2 k3 k4 k5 k =>
      simp only [List.cons_append, List.cons.injEq] at e
      obtain ⟨rfl, e⟩ := e
      obtain ⟨rfl, rfl, e1⟩ := ih k e
      exact ⟨rfl, rfl, e1⟩
    | ref hm _ =>
      obtain ⟨x, rfl⟩ := ref_head hm
      simp only [List.cons_append, List.cons.injEq] at e
      exact absurd e.1 h4
  | ref hm _ ih =>
    cases h' with
    | nil =>
      obtain ⟨x, rfl⟩ := ref_head hm
      simp at e
    | plain k1 k2 k3 k4 k5 k =>
      obtain ⟨x, rfl⟩ := ref_head hm
      simp only [List.cons_append, List.cons.injEq] at e
      exact absurd e.1.symm k4
    | ref km k =>
      rw [List.append_assoc, List.append_assoc] at e
      obtain ⟨rfl, rfl, e0⟩ := ref_unique hm km e
      obtain ⟨rfl, rfl, e1⟩ := ih k e0
      exact ⟨rfl, rfl, e1⟩

theorem name_not_space {c : Nat} (h : Spec.nameStart c = true) : c ≠ 0x20 ∧ c ≠ 0x3e ∧ c ≠ 0x2f := by
  refine ⟨?_, ?_, ?_⟩ <;> rintro rfl <;> revert h <;> decide

theorem xmlAttrs_unique {t t' : PyStr} {l l' : List (PyStr × PyStr)} {r r' : PyStr} (h : XmlAttrs t l) (h' : XmlAttrs t' l') (hr : XTail r)
    (hr' : XTail r') (e : t ++ r = t' ++ r') : t = t' ∧ l = l' ∧ r = r' := by
  have sp : ∀ k, ∀ c ∈ List.replicate k 0x20, (fun c : Nat => c == 0x20) c = true := by
    intro k c hc; rw [List.eq_of_mem_replicate hc]; rfl
  -- a tail is not the start of an attribute
  have clash : ∀ (k : Nat) (n : PyStr) (x r : PyStr), XmlName n → XTail r → List.replicate (k + 1) 0x20 ++ (n ++ x) = r → False := by
    intro k n x r hn hr e
    obtain ⟨j, c, r', rfl, hc⟩ := hr
    obtain ⟨c0, r0, rfl, hs, _⟩ := hn
    have hne := name_not_space hs
    obtain ⟨_, q⟩ := run_unique (sp _) (sp _) (by intro y hy; simp at hy; subst hy; simpa using hne.1)
      (by intro y hy; simp at hy; subst hy; rcases hc with rfl | rfl <;> rfl) e
    simp only [List.cons_append, List.cons.injEq] at q
    rcases hc with rfl | rfl
    · exact hne.2.1 q.1
    · exact hne.2.2 q.1
  have s1 : pstr "=\"" = [0x3d, 0x22] := rfl
  have s2 : pstr "\"" = [0x22] := rfl
  have s3 : ' '.toNat = 0x20 := rfl
  induction h generalizing t' l' with
  | nil =>
    cases h' with
    | nil => exact ⟨rfl, rfl, e⟩
    | cons k hn hv hl =>
      exfalso
      rw [List.nil_append] at e
      simp only [List.append_assoc] at e
      exact clash k _ _ r hn hr e.symm
  | cons k hn hv hl ih =>
    rename_i n t v r0 l0
    cases h' with
    | nil =>
      exfalso
      rw [List.nil_append] at e
      simp only [List.append_assoc] at e
      exact clash k _ _ r' hn hr' e
    | cons k' hn' hv' hl' =>
      rename_i n' t' v' r0' l0'
      rw [s1, s2, s3] at e
      simp only [List.append_assoc] at e
      obtain ⟨c, m, rfl, hs, _⟩ := id hn
      obtain ⟨c', m', rfl, hs', _⟩ := id hn'
      obtain ⟨e1, e2⟩ := run_unique (sp _) (sp _) (by intro y hy; simp at hy; subst hy; simpa using (name_not_space hs).1)
        (by intro y hy; simp at hy; subst hy; simpa using (name_not_space hs').1) e
      obtain ⟨e3, e4⟩ := run_unique (xmlName_chars hn) (xmlName_chars hn') (by intro y hy; simp at hy; subst hy; decide)
        (by intro y hy; simp at hy; subst hy; decide) e2
      simp only [List.cons_append, List.nil_append, List.cons.injEq, true_and] at e4
      obtain ⟨rfl, rfl, e5⟩ := xmlValue_unique hv hv' e4
      obtain ⟨rfl, rfl, e6⟩ := ih hl' e5
      have hk := congrArg List.length e1
      simp only [List.length_replicate] at hk
      have hk : k = k' := by omega
      subst hk
      rw [e3]
      exact ⟨rfl, rfl, e6⟩

theorem replicate_char_unique {j k c d : Nat} {a b : PyStr} (hc : c ≠ 0x20) (hd : d ≠ 0x20)
    (e : List.replicate j 0x20 ++ c :: a = List.replicate k 0x20 ++ d :: b) : j = k ∧ c = d ∧ a = b := by
  have sp : ∀ k, ∀ c ∈ List.replicate k 0x20, (fun c : Nat => c == 0x20) c = true := by
    intro k c hc; rw [List.eq_of_mem_replicate hc]; rfl
  obtain ⟨e1, e2⟩ := run_unique (sp _) (sp _) (by intro y hy; simp at hy; subst hy; simpa using hc)
    (by intro y hy; simp at hy; subst hy; simpa using hd) e
  have hk := congrArg List.length e1
  simp only [List.length_replicate] at hk
  simp only [List.cons.injEq] at e2
  exact ⟨hk, e2.1, e2.2⟩

/-- An opening or empty tag is determined by the text. -/
theorem xmlTag_unique {tag tag' at1 at2 a b : PyStr} {l l' : List (PyStr × PyStr)} {j k c d : Nat} (hn : XmlName tag) (hn' : XmlName tag')
    (ha : XmlAttrs at1 l) (ha' : XmlAttrs at2 l') (hc : c = 0x3e ∨ c = 0x2f) (hd : d = 0x3e ∨ d = 0x2f)
    (e : tag ++ (at1 ++ (List.replicate j 0x20 ++ c :: a)) = tag' ++ (at2 ++ (List.replicate k 0x20 ++ d :: b))) :
    tag = tag' ∧ at1 = at2 ∧ l = l' ∧ j = k ∧ c = d ∧ a = b := by
  have stop : ∀ (t : PyStr) (l : List (PyStr × PyStr)) (j c : Nat) (a : PyStr), XmlAttrs t l → (c = 0x3e ∨ c = 0x2f) →
      ∀ y, (t ++ (List.replicate j 0x20 ++ c :: a)).head? = some y → Spec.nameChar y = false := by
    intro t l j c a ha hc y hy
    cases ha with
    | nil =>
      cases j with
      | zero => simp at hy; subst hy; rcases hc with rfl | rfl <;> decide
      | succ j => simp [List.replicate_succ] at hy; subst hy; decide
    | cons i _ _ _ => simp [List.replicate_succ] at hy; subst hy; decide
  obtain ⟨rfl, e1⟩ := run_unique (xmlName_chars hn) (xmlName_chars hn') (stop _ _ _ _ _ ha hc) (stop _ _ _ _ _ ha' hd) e
  obtain ⟨rfl, rfl, e2⟩ := xmlAttrs_unique ha ha' ⟨j, c, a, rfl, hc⟩ ⟨k, d, b, rfl, hd⟩ e1
  obtain ⟨rfl, rfl, e3⟩ := replicate_char_unique (by rcases hc with rfl | rfl <;> decide) (by rcases hd with rfl | rfl <;> decide) e2
  exact ⟨rfl, rfl, rfl, rfl, rfl, e3⟩

theorem xmlContent_unique {t t' r r' : PyStr} {ev ev' : List XmlEvent} (h : XmlContent t ev) (h' : XmlContent t' ev') (hr : XStop r)
    (hr' : XStop r') (e : t ++ r = t' ++ r') : t = t' ∧ ev = ev' ∧ r = r' := by
  have s1 : pstr "<" = [0x3c] := rfl
  have s2 : pstr ">" = [0x3e] := rfl
  have s3 : pstr "</" = [0x3c, 0x2f] := rfl
  have s4 : pstr "/>" = [0x2f, 0x3e] := rfl
  have s5 : ' '.toNat = 0x20 := rfl
  have lt : '<'.toNat = 0x3c := rfl
  have am : '&'.toNat = 0x26 := rfl
  rw [lt] at *
  -- a stop is not the start of content
  have stopChar : ∀ (c : Nat) (x r : PyStr), c ≠ 0x3c → XStop r → c :: x = r → False := by
    intro c x r hc hr e
    rcases hr with rfl | ⟨r', rfl⟩
    · cases e
    · simp only [List.cons.injEq] at e; exact hc e.1
  have stopTag : ∀ (n : PyStr) (x r : PyStr), XmlName n → XStop r → 0x3c :: (n ++ x) = r → False := by
    intro n x r hn hr e
    obtain ⟨c, m, rfl, hs, _⟩ := hn
    rcases hr with rfl | ⟨r', rfl⟩
    · cases e
    · simp only [List.cons_append, List.cons.injEq] at e; exact (name_not_space hs).2.2 e.2.1
  induction h generalizing t' ev' r r' with
  | nil =>
    cases h' with
    | nil => exact ⟨rfl, rfl, e⟩
    | char h1 h2 h3 h4 _ => exact (stopChar _ _ r h2 hr e.symm).elim
    | ref hm _ => obtain ⟨x, rfl⟩ := ref_head hm; exact (stopChar _ _ r (by decide) hr e.symm).elim
    | element k hn _ _ _ _ =>
      rw [s1] at e; simp only [List.append_assoc] at e; exact (stopTag _ _ r hn hr e.symm).elim
    | empty k hn _ _ _ =>
      rw [s1] at e; simp only [List.append_assoc] at e; exact (stopTag _ _ r hn hr e.symm).elim
  | char h1 h2 h3 h4 _ ih =>
    cases h' with
    | nil => exact (stopChar _ _ r' h2 hr' e).elim
    | char k1 k2 k3 k4 k =>
      simp only [List.cons_append, List.cons.injEq] at e
      obtain ⟨rfl, e⟩ := e
      obtain ⟨rfl, rfl, e1⟩ := ih k hr hr' e
      exact ⟨rfl, rfl, e1⟩
    | ref hm _ =>
      obtain ⟨x, rfl⟩ := ref_head hm
      simp only [List.cons_append, List.cons.injEq] at e
      exact absurd e.1 h4
    | element k hn _ _ _ _ =>
      rw [s1] at e; simp only [List.append_assoc, List.cons_append, List.cons.injEq] at e; exact absurd e.1 h2
    | empty k hn _ _ _ =>
      rw [s1] at e; simp only [List.append_assoc, List.cons_append, List.cons.injEq] at e; exact absurd e.1 h2
  | ref hm _ ih =>
    cases h' with
    | nil => obtain ⟨x, rfl⟩ := ref_head hm; exact (stopChar _ _ r' (by decide) hr' e).elim
    | char k1 k2 k3 k4 k =>
      obtain ⟨x, rfl⟩ := ref_head hm
      simp only [List.cons_append, List.cons.injEq] at e
      exact absurd e.1.symm k4
    | ref km k =>
      rw [List.append_assoc, List.append_assoc] at e
      obtain ⟨rfl, rfl, e0⟩ := ref_unique hm km e
      obtain ⟨rfl, rfl, e1⟩ := ih k hr hr' e0
      exact ⟨rfl, rfl, e1⟩
    | element k hn _ _ _ _ =>
      obtain ⟨x, rfl⟩ := ref_head hm
      rw [s1] at e; simp only [List.append_assoc, List.cons_append, List.cons.injEq] at e; exact absurd e.1 (by decide)
    | empty k hn _ _ _ =>
      obtain ⟨x, rfl⟩ := ref_head hm
      rw [s1] at e; simp only [List.append_assoc, List.cons_append, List.cons.injEq] at e; exact absurd e.1 (by decide)
  | element k hn ha hd hb ht ihb iht =>
    rw [s1, s2, s3, s5] at e ⊢
    cases h' with
    | nil => simp only [List.append_assoc] at e; exact (stopTag _ _ r' hn hr' e).elim
    | char k1 k2 k3 k4 k =>
      simp only [List.append_assoc, List.cons_append, List.cons.injEq] at e; exact absurd e.1.symm k2
    | ref hm _ =>
      obtain ⟨x, rfl⟩ := ref_head hm
      simp only [List.append_assoc, List.cons_append, List.cons.injEq] at e; exact absurd e.1 (by decide)
    | element k' hn' ha' hd' hb' ht' =>
      rw [s1, s2, s3, s5] at e ⊢
      simp only [List.append_assoc, List.cons_append, List.nil_append, List.cons.injEq, true_and] at e
      obtain ⟨rfl, rfl, rfl, rfl, _, e2⟩ := xmlTag_unique hn hn' ha ha' (.inl rfl) (.inl rfl) e
      obtain ⟨rfl, rfl, e3⟩ := ihb hb' (.inr ⟨_, rfl⟩) (.inr ⟨_, rfl⟩) e2
      simp only [List.cons.injEq, true_and] at e3
      have e4 := List.append_cancel_left e3
      simp only [List.cons.injEq, true_and] at e4
      obtain ⟨rfl, rfl, e5⟩ := iht ht' hr hr' e4
      exact ⟨rfl, rfl, e5⟩
    | empty k' hn' ha' hd' ht' =>
      rw [s1, s4, s5] at e
      simp only [List.append_assoc, List.cons_append, List.nil_append, List.cons.injEq, true_and] at e
      obtain ⟨_, _, _, _, hc, _⟩ := xmlTag_unique hn hn' ha ha' (.inl rfl) (.inr rfl) e
      cases hc
  | empty k hn ha hd ht iht =>
    rw [s1, s4, s5] at e ⊢
    cases h' with
    | nil => simp only [List.append_assoc] at e; exact (stopTag _ _ r' hn hr' e).elim
    | char k1 k2 k3 k4 k =>
      simp only [List.append_assoc, List.cons_append, List.cons.injEq] at e; exact absurd e.1.symm k2
    | ref hm _ =>
      obtain ⟨x, rfl⟩ := ref_head hm
      simp only [List.append_assoc, List.cons_append, List.cons.injEq] at e; exact absurd e.1 (by decide)
    | element k' hn' ha' hd' hb' ht' =>
      rw [s1, s2, s3, s5] at e
      simp only [List.append_assoc, List.cons_append, List.nil_append, List.cons.injEq, true_and] at e
      obtain ⟨_, _, _, _, hc, _⟩ := xmlTag_unique hn hn' ha ha' (.inr rfl) (.inl rfl) e
      cases hc
    | empty k' hn' ha' hd' ht' =>
      rw [s1, s4, s5] at e ⊢
      simp only [List.append_assoc, List.cons_append, List.nil_append, List.cons.injEq, true_and] at e
      obtain ⟨rfl, rfl, rfl, rfl, _, e2⟩ := xmlTag_unique hn hn' ha ha' (.inr rfl) (.inr rfl) e
      simp only [List.cons.injEq, true_and] at e2
      obtain ⟨rfl, rfl, e5⟩ := iht ht' hr hr' e2
      exact ⟨rfl, rfl, e5⟩

/-- XML content stands for one sequence of tags and characters only. -/
theorem xml_unique (t : PyStr) (ev ev' : List XmlEvent) (h : XmlContent t ev) (h' : XmlContent t ev') : ev = ev' :=
  (xmlContent_unique h h' (.inl rfl) (.inl rfl) rfl).2.1

/-- **C50 (partial).** A reader of what the writer has written gets exactly the elements, attributes and texts of the calls. -/
theorem xml_recovered_partial (level : Nat) (calls : XBody) (events : List XmlEvent) (h : WritesXml level calls events)
    (ev : List XmlEvent) (hev : XmlContent (xWrite level calls) ev) : ev = events :=
  xml_unique _ _ _ hev (xml_writer_partial level calls events h)

/-- **C50.** A bare element whose text is escaped is read as an element with exactly this text: text cannot make markup. -/
theorem xml_text_element (level : Nat) (tag s : PyStr) (attrs as : List (PyStr × PyStr)) (hn : XmlName tag) (ha : WritesAttrs attrs as)
    (hd : (as.map Prod.fst).Nodup) (hs : ∀ c ∈ s, xmlChar c = true) (ev : List XmlEvent) :
    XmlContent (xWrite level (.cons (.elm tag attrs true true (.cons (.text (saxEscape s) true) .nil)) .nil)) ev ↔
      ev = Spec.indentation level ++ .start tag as :: chars s ++ [.stop tag] := by
  have w := WritesXml.elm (n := level) (bare := true) (nol := true) hn ha hd (.raw (xml_escaped_text s hs) .nil) .nil
  have w := xml_writer_partial _ _ _ w
  have e : Spec.indentation level ++ [XmlEvent.start tag as] ++ (if true = true then [] else Spec.lineEnd) ++ (chars s ++ []) ++
      (if true = true then [] else Spec.indentation level) ++ [XmlEvent.stop tag] ++ (if true = true then [] else Spec.lineEnd) ++ [] =
      Spec.indentation level ++ .start tag as :: chars s ++ [.stop tag] := by simp
  rw [e] at w
  exact ⟨fun h => xml_unique _ _ _ h w, fun h => h ▸ w⟩

/-! ### What does not hold -/

/-- The first line of the XML file is not an XML declaration, whatever the codec: the version is `1.0.0`. -/
theorem xml_header_counterexample (codec : PyStr) : ¬ Spec.XmlDecl (xHeader codec) := by
  rintro ⟨digits, encoding, hne, hd, _, e⟩
  have h0 : ∃ x, xHeader codec = pstr "<?xml version=\"1." ++ (pstr "0" ++ 0x2e :: x) := by
    unfold xHeader
    split
    · exact ⟨pstr "0\" ?>", rfl⟩
    · exact ⟨pstr "0\" encoding=\"" ++ codec ++ pstr "\" ?>", by
        have : pstr "<?xml version=\"1.0.0\" encoding=\"" = pstr "<?xml version=\"1." ++ (pstr "0" ++ 0x2e :: pstr "0\" encoding=\"") := rfl
        rw [this]; simp [List.append_assoc]⟩
  obtain ⟨x, h0⟩ := h0
  rw [h0, List.append_assoc, List.append_assoc, List.append_assoc] at e
  have e := List.append_cancel_left e
  have s2 : pstr "\"" = [0x22] := rfl
  rw [s2] at e
  obtain ⟨_, e2⟩ := run_unique (p := fun c => decide (48 ≤ c ∧ c ≤ 57)) (a := pstr "0") (b := digits) (by decide)
    (by intro c hc; exact decide_eq_true (hd c hc)) (by intro c hc; simp at hc; subst hc; rfl) (by intro c hc; simp at hc; subst hc; rfl) e
  simp at e2

/-- The HTML writer does not escape text: the text of a character can be markup. These two different trees of calls, a text and an element,
give the same file. -/
theorem html_text_counterexample :
    hFile (.cons (.text (pstr "<b ></b>") false) .nil) = hFile (.cons (.elm (pstr "b") [] true false .nil) .nil) := by decide

/-- A text with a lone `&`, written without escape, is not well-formed. -/
theorem xml_raw_counterexample : ¬ ∃ ev, XmlContent (xWrite 0 (.cons (.text (pstr "&") true) .nil)) ev := by
  rintro ⟨ev, h⟩
  have e : xWrite 0 (.cons (.text (pstr "&") true) .nil) = [0x26] := by decide
  rw [e] at h
  generalize ht : ([0x26] : PyStr) = t at h
  cases h with
  | nil => cases ht
  | char _ _ _ h4 _ => simp only [List.cons.injEq] at ht; exact h4 ht.1.symm
  | ref hm _ =>
    have : ∀ p ∈ xmlRefs, 2 ≤ p.1.length := by decide
    have h2 := this _ hm
    have := congrArg List.length ht
    simp at this h2; omega
  | element k _ _ _ _ _ =>
    have s1 : pstr "<" = [0x3c] := rfl
    rw [s1] at ht; simp only [List.append_assoc, List.cons_append, List.cons.injEq] at ht; exact absurd ht.1 (by decide)
  | empty k _ _ _ _ =>
    have s1 : pstr "<" = [0x3c] := rfl
    rw [s1] at ht; simp only [List.append_assoc, List.cons_append, List.cons.injEq] at ht; exact absurd ht.1 (by decide)

/-- The hypotheses are met: a page with two characters, one of them `<`. -/
example : ∃ ev, WritesXml 0
    (.cons (.elm (pstr "page") [(pstr "id", pstr "1"), (pstr "x", pstr "&lt;")] false false
      (.cons (.elm (pstr "char") [] true false (.cons (.text (saxEscape (pstr "<")) true) .nil)) (.cons (.single (pstr "img") []) .nil))) .nil) ev :=
  ⟨_, .elm ⟨0x70, pstr "age", rfl, by decide, by decide⟩
    (.cons ⟨0x69, pstr "d", rfl, by decide, by decide⟩
      (.plain (c := 0x31) (t := []) (by decide) (by decide) (by decide) (by decide) (by decide) .nil)
      (.cons ⟨0x78, [], rfl, by decide, by decide⟩ (.ref (r := pstr "&lt;") (c := 0x3c) (t := []) (by decide) .nil) .nil)) (by decide)
    (.elm ⟨0x63, pstr "har", rfl, by decide, by decide⟩ .nil (by decide) (.raw (xml_escaped_text _ (by decide)) .nil)
      (.single ⟨0x69, pstr "mg", rfl, by decide, by decide⟩ .nil (by decide) .nil)) .nil⟩

example : ∀ c ∈ pstr "a < b & c", xmlChar c = true := by decide

end Pdf
