import Verif.Spec.Text
import Mathlib.Data.List.Basic
/-! Properties C59 (text strings) and C51 (markup escaping). -/

namespace Pdf

/-! ### Text strings -/

theorem ofNat_toNat {n : Nat} (h : n < 256) : (UInt8.ofNat n).toNat = n := by
  simp; omega

theorem utf16be_char (c : Char) (rest : Bytes) : utf16be (Spec.utf16Char c ++ rest) = c.toNat :: utf16be rest := by
  have hv : c.toNat < 0xd800 ∨ 0xdfff < c.toNat ∧ c.toNat < 0x110000 := c.valid
  generalize hn : c.toNat = n at *
  unfold Spec.utf16Char
  simp only [hn]
  by_cases h : n < 0x10000
  · rw [if_pos h, utf16be.eq_def]
    simp only [List.cons_append, List.nil_append, ofNat_toNat (show n / 256 < 256 by omega),
      ofNat_toNat (show n % 256 < 256 by omega)]
    rw [show n / 256 * 256 + n % 256 = n by omega, if_pos (by omega)]
  · rw [if_neg h, utf16be.eq_def]
    simp only [List.cons_append, List.nil_append]
    rw [ofNat_toNat (by omega), ofNat_toNat (by omega), ofNat_toNat (by omega), ofNat_toNat (by omega)]
    rw [show (55296 + (n - 65536) / 1024) / 256 * 256 + (55296 + (n - 65536) / 1024) % 256 = 55296 + (n - 65536) / 1024 by omega,
      show (56320 + (n - 65536) % 1024) / 256 * 256 + (56320 + (n - 65536) % 1024) % 256 = 56320 + (n - 65536) % 1024 by omega,
      if_neg (by omega), if_neg (by omega), if_pos (by omega)]
    rw [List.cons.injEq]
    exact ⟨by omega, rfl⟩

theorem utf16be_text (s : List Char) : utf16be (Spec.utf16 s) = s.map Char.toNat := by
  induction s with
  | nil => simp [Spec.utf16, utf16be]
  | cons c cs ih =>
    rw [Spec.utf16, List.flatMap_cons, utf16be_char, List.map_cons]
    rw [Spec.utf16] at ih
    rw [ih]

/-- **C59.** A string with the byte-order mark followed by the UTF-16BE code of a text decodes to that text, for every text. -/
theorem decode_utf16 (s : List Char) : decodeText (0xfe :: 0xff :: Spec.utf16 s) = s.map Char.toNat := by
  show utf16be _ = _
  exact utf16be_text s

example : decodeText (0xfe :: 0xff :: Spec.utf16 ['a', 'é', '漢', '😀']) = [97, 233, 28450, 128512] := by
  rw [decode_utf16]; rfl

/-- The bytes of a string without byte-order mark are decoded one by one. -/
theorem decode_doc (s : Bytes) (h : ∀ r, s ≠ 0xfe :: 0xff :: r) :
    decodeText s = s.map fun c => pdfDocEncoding.getD c.toNat 0 := by
  unfold decodeText
  split
  · exact absurd rfl (h _)
  · rfl

/-- **C59.** Without byte-order mark every byte gives exactly one character: the one of PDFDocEncoding, if that has one. -/
theorem decode_docencoding (s : Bytes) (h : ∀ r, s ≠ 0xfe :: 0xff :: r) :
    (decodeText s).length = s.length ∧
    ∀ i (hi : i < s.length) c, Spec.docChar s[i].toNat = some c → (decodeText s)[i]? = some c.toNat := by
  rw [decode_doc s h]
  refine ⟨by simp, fun i hi c hc => ?_⟩
  have key : ∀ b : Fin 256, ∀ c, Spec.docChar b.1 = some c → pdfDocEncoding.getD b.1 0 = c.toNat := by
    have : ∀ b : Fin 256, (Spec.docChar b.1).all (fun c => pdfDocEncoding.getD b.1 0 == c.toNat) = true := by decide +kernel
    intro b c hc
    have := this b
    rw [hc] at this
    simpa using this
  rw [List.getElem?_map, List.getElem?_eq_getElem hi, Option.map_some]
  rw [key ⟨s[i].toNat, s[i].toNat_lt⟩ c hc]

/-- **C59.** Printable ASCII text is preserved. -/
theorem decode_ascii (s : Bytes) (h : ∀ b ∈ s, 32 ≤ b.toNat ∧ b.toNat < 127) : decodeText s = s.map UInt8.toNat := by
  have hne : ∀ r, s ≠ 0xfe :: 0xff :: r := by
    rintro r rfl
    have := (h 0xfe (by simp)).2
    revert this; decide
  rw [decode_doc s hne]
  apply List.map_congr_left
  intro b hb
  have key : ∀ b : Fin 256, 32 ≤ b.1 → b.1 < 127 → pdfDocEncoding.getD b.1 0 = b.1 := by decide +kernel
  exact key ⟨b.toNat, b.toNat_lt⟩ (h b hb).1 (h b hb).2

/-- **C59.** Two strings without byte-order mark in which every byte has a character decode to the same text only if they are
equal. -/
theorem decode_injective (s t : Bytes) (hs : ∀ r, s ≠ 0xfe :: 0xff :: r) (ht : ∀ r, t ≠ 0xfe :: 0xff :: r)
    (ds : ∀ b ∈ s, (Spec.docChar b.toNat).isSome) (dt : ∀ b ∈ t, (Spec.docChar b.toNat).isSome)
    (h : decodeText s = decodeText t) : s = t := by
  rw [decode_doc s hs, decode_doc t ht] at h
  have key : ∀ a b : Fin 256, (Spec.docChar a.1).isSome → (Spec.docChar b.1).isSome →
      pdfDocEncoding.getD a.1 0 = pdfDocEncoding.getD b.1 0 → a = b := by decide +kernel
  clear hs ht
  induction s generalizing t with
  | nil => cases t <;> simp_all
  | cons a as ih =>
    cases t with
    | nil => simp at h
    | cons b bs =>
      simp only [List.map_cons, List.cons.injEq] at h
      have := key ⟨a.toNat, a.toNat_lt⟩ ⟨b.toNat, b.toNat_lt⟩ (ds a (by simp)) (dt b (by simp)) h.1
      have : a = b := UInt8.toNat_inj.1 (congrArg Fin.val this)
      subst this
      rw [ih bs (fun x hx => ds x (by simp [hx])) (fun x hx => dt x (by simp [hx])) h.2]

example : decodeText [0x92, 0x20, 0xa0, 0xe9] = [0x2122, 0x20, 0x20ac, 0xe9] := by decide +kernel
example : ∀ r : Bytes, [0x92, 0x20, 0xa0, 0xe9] ≠ (0xfe :: 0xff :: r : Bytes) := by intro r h; cases h

/-! ### Escaping -/

theorem decimal_facts (n : Nat) : decimal n ≠ [] ∧ (∀ d ∈ decimal n, 48 ≤ d.toNat ∧ d.toNat ≤ 57) ∧
    Spec.digitsValue (decimal n) = n := by
  induction n using Nat.strongRecOn with
  | _ n ih =>
    unfold decimal
    by_cases h : n < 10
    · rw [if_pos h]
      have e : (UInt8.ofNat (48 + n)).toNat = 48 + n := ofNat_toNat (by omega)
      refine ⟨by simp, ?_, ?_⟩
      · intro d hd
        rw [List.mem_singleton.1 hd, e]; omega
      · simp only [Spec.digitsValue, List.foldl_cons, List.foldl_nil, e]; omega
    · rw [if_neg h]
      obtain ⟨h1, h2, h3⟩ := ih (n / 10) (by omega)
      have e : (UInt8.ofNat (48 + n % 10)).toNat = 48 + n % 10 := ofNat_toNat (by omega)
      refine ⟨by simp, ?_, ?_⟩
      · intro d hd
        rcases List.mem_append.1 hd with hd | hd
        · exact h2 d hd
        · rw [List.mem_singleton.1 hd, e]; omega
      · simp only [Spec.digitsValue] at h3 ⊢
        rw [List.foldl_append, h3]
        simp only [List.foldl_cons, List.foldl_nil, e]; omega

theorem escapeMarkup_cons (c : Nat) (s : PyStr) : escapeMarkup (c :: s) = escapeMarkup [c] ++ escapeMarkup s := by
  unfold escapeMarkup replaceChar
  rw [show c :: s = [c] ++ s from rfl]
  simp only [List.flatMap_append]

theorem enc_cons (c : Nat) (s : PyStr) : enc (c :: s) = enc [c] ++ enc s := by
  unfold enc
  rw [escapeMarkup_cons]
  unfold asciiCharRefs
  rw [List.flatMap_append]

theorem escapeMarkup_plain (c : Nat) (h1 : c ≠ 0x26) (h2 : c ≠ 0x3e) (h3 : c ≠ 0x3c) (h4 : c ≠ 0x22) : escapeMarkup [c] = [c] := by
  simp [escapeMarkup, replaceChar, h1, h2, h3, h4]

/-- What `enc` writes for one character, followed by the code of a text. -/
theorem enc_char (c : Nat) (b : Bytes) (s : PyStr) (h : Spec.Reads b s) : Spec.Reads (enc [c] ++ b) (c :: s) := by
  by_cases h1 : c = 0x26
  · subst h1; exact Spec.Reads.named (name := Spec.ascii "amp") rfl h
  by_cases h2 : c = 0x3e
  · subst h2; exact Spec.Reads.named (name := Spec.ascii "gt") rfl h
  by_cases h3 : c = 0x3c
  · subst h3; exact Spec.Reads.named (name := Spec.ascii "lt") rfl h
  by_cases h4 : c = 0x22
  · subst h4; exact Spec.Reads.named (name := Spec.ascii "quot") rfl h
  have e : enc [c] = asciiCharRefs [c] := by unfold enc; rw [escapeMarkup_plain c h1 h2 h3 h4]
  rw [e]
  by_cases h5 : c < 128
  · have e' : asciiCharRefs [c] = [UInt8.ofNat c] := by simp [asciiCharRefs, h5]
    have v : (UInt8.ofNat c).toNat = c := ofNat_toNat (by omega)
    rw [e']
    have := Spec.Reads.plain (c := UInt8.ofNat c) (b := b) (s := s) (by rw [v]; exact h5) (by rw [v]; exact h1) (by rw [v]; exact h3)
      (by rw [v]; exact h2) (by rw [v]; exact h4) h
    rw [v] at this
    exact this
  · obtain ⟨d1, d2, d3⟩ := decimal_facts c
    have e' : asciiCharRefs [c] = [0x26, 0x23] ++ decimal c ++ [0x3b] := by simp [asciiCharRefs, h5]
    rw [e']
    have := Spec.Reads.numeric (ds := decimal c) (b := b) (s := s) d1 d2 h
    rw [d3] at this
    simpa using this

/-- **C51.** `enc(s)` is markup text without `<`, `>` or quotes, in ASCII, in which `&` only starts character references, and a
reader that resolves the references gets `s`, for every string. -/
theorem enc_reads (s : PyStr) : Spec.Reads (enc s) s := by
  induction s with
  | nil => exact .nil
  | cons c cs ih => rw [enc_cons]; exact enc_char c _ _ ih

theorem entity_bytes {name : Bytes} {n : Nat} (h : Spec.entity name = some n) :
    ∀ c ∈ name, 97 ≤ c.toNat ∧ c.toNat ≤ 122 := by
  unfold Spec.entity at h
  split at h
  · rename_i e; subst e; decide +kernel
  · split at h
    · rename_i e; subst e; decide +kernel
    · split at h
      · rename_i e; subst e; decide +kernel
      · split at h
        · rename_i e; subst e; decide +kernel
        · cases h

/-- **C51.** No byte of markup text is `<`, `>`, a quote or outside ASCII; so escaped text never introduces markup. -/
theorem enc_safe (s : PyStr) : ∀ b ∈ enc s, b.toNat < 128 ∧ b.toNat ≠ '<'.toNat ∧ b.toNat ≠ '>'.toNat ∧ b.toNat ≠ '"'.toNat := by
  have : ∀ b s, Spec.Reads b s → ∀ c ∈ b, c.toNat < 128 ∧ c.toNat ≠ '<'.toNat ∧ c.toNat ≠ '>'.toNat ∧ c.toNat ≠ '"'.toNat := by
    intro b s h
    induction h with
    | nil => simp
    | @plain c _ _ h1 _ h3 h4 h5 _ ih =>
      intro x hx
      rcases List.mem_cons.1 hx with rfl | hx
      · exact ⟨h1, h3, h4, h5⟩
      · exact ih x hx
    | @named name n b s he _ ih =>
      intro x hx
      simp only [List.cons_append, List.mem_cons, List.mem_append] at hx
      rcases hx with rfl | hx | rfl | hx
      · decide
      · have := entity_bytes he x hx
        have e1 : '<'.toNat = 60 := rfl
        have e2 : '>'.toNat = 62 := rfl
        have e3 : '"'.toNat = 34 := rfl
        omega
      · decide
      · exact ih x hx
    | @numeric ds b s _ hd _ ih =>
      intro x hx
      simp only [List.cons_append, List.mem_cons, List.mem_append] at hx
      rcases hx with rfl | rfl | hx | rfl | hx
      · decide
      · decide
      · have := hd x hx
        have e1 : '<'.toNat = 60 := rfl
        have e2 : '>'.toNat = 62 := rfl
        have e3 : '"'.toNat = 34 := rfl
        omega
      · decide
      · exact ih x hx
  exact this _ _ (enc_reads s)

theorem split_semicolon {a a' b b' : Bytes} (x : UInt8) (h : a ++ x :: b = a' ++ x :: b') (ha : x ∉ a) (ha' : x ∉ a') :
    a = a' ∧ b = b' := by
  induction a generalizing a' with
  | nil =>
    cases a' with
    | nil => simpa using h
    | cons c cs => simp only [List.nil_append, List.cons_append, List.cons.injEq] at h; simp [h.1] at ha'
  | cons c cs ih =>
    cases a' with
    | nil => simp only [List.nil_append, List.cons_append, List.cons.injEq] at h; simp [h.1] at ha
    | cons c' cs' =>
      simp only [List.cons_append, List.cons.injEq] at h
      obtain ⟨e1, e2⟩ := ih h.2 (fun hx => ha (by simp [hx])) (fun hx => ha' (by simp [hx]))
      exact ⟨by rw [h.1, e1], e2⟩

/-- Markup text has only one reading. -/
theorem reads_unique {b : Bytes} {s t : PyStr} (h : Spec.Reads b s) (h' : Spec.Reads b t) : s = t := by
  induction h generalizing t with
  | nil => cases h' with
    | nil => rfl
  | @plain c b s h1 h2 h3 h4 h5 _ ih =>
    generalize hx : c :: b = x at h'
    cases h' with
    | nil => cases hx
    | plain _ _ _ _ _ hr => cases hx; rw [ih hr]
    | named _ _ => cases hx; exact absurd rfl h2
    | numeric _ _ _ => cases hx; exact absurd rfl h2
  | @named name n b s he _ ih =>
    generalize hx : UInt8.ofNat '&'.toNat :: name ++ UInt8.ofNat ';'.toNat :: b = x at h'
    have hs : UInt8.ofNat ';'.toNat ∉ name := fun hm => absurd (entity_bytes he _ hm).1 (by decide)
    cases h' with
    | nil => cases hx
    | plain _ h2 _ _ _ _ => cases hx; exact absurd rfl h2
    | @named name' n' b' s' he' hr =>
      simp only [List.cons_append, List.cons.injEq, true_and] at hx
      have hs' : UInt8.ofNat ';'.toNat ∉ name' := fun hm => absurd (entity_bytes he' _ hm).1 (by decide)
      obtain ⟨rfl, rfl⟩ := split_semicolon _ hx hs hs'
      rw [ih hr]
      rw [he] at he'
      cases he'; rfl
    | @numeric ds b' s' _ _ _ =>
      simp only [List.cons_append, List.cons.injEq, true_and] at hx
      cases name with
      | nil => simp only [List.nil_append, List.cons.injEq] at hx; exact absurd hx.1 (by decide)
      | cons c cs =>
        simp only [List.cons_append, List.cons.injEq] at hx
        have := (entity_bytes he c (by simp)).1
        rw [hx.1] at this
        exact absurd this (by decide)
  | @numeric ds b s hn hd _ ih =>
    generalize hx : UInt8.ofNat '&'.toNat :: UInt8.ofNat '#'.toNat :: ds ++ UInt8.ofNat ';'.toNat :: b = x at h'
    have hs : ∀ ds : Bytes, (∀ d ∈ ds, 48 ≤ d.toNat ∧ d.toNat ≤ 57) → UInt8.ofNat ';'.toNat ∉ ds :=
      fun ds hd hm => absurd (hd _ hm).2 (by decide)
    cases h' with
    | nil => cases hx
    | plain _ h2 _ _ _ _ => cases hx; exact absurd rfl h2
    | @named name' n' b' s' he' hr =>
      simp only [List.cons_append, List.cons.injEq, true_and] at hx
      cases name' with
      | nil => simp only [List.nil_append, List.cons.injEq] at hx; exact absurd hx.1 (by decide)
      | cons c cs =>
        simp only [List.cons_append, List.cons.injEq] at hx
        have := (entity_bytes he' c (by simp)).1
        rw [← hx.1] at this
        exact absurd this (by decide)
    | @numeric ds' b' s' _ hd' hr =>
      simp only [List.cons_append, List.cons.injEq, true_and] at hx
      obtain ⟨rfl, rfl⟩ := split_semicolon _ hx (hs _ hd) (hs _ hd')
      rw [ih hr]

/-- **C51.** No two strings have the same escaped form. -/
theorem enc_injective (s t : PyStr) (h : enc s = enc t) : s = t :=
  reads_unique (enc_reads s) (h ▸ enc_reads t)

example : enc [0x3c, 0x61, 0x26, 0xe9, 0x22] = Spec.ascii "&lt;a&amp;&#233;&quot;" := by decide +kernel

end Pdf
