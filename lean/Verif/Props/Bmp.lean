import Verif.Model.Bmp
import Verif.Spec.Bmp
import Mathlib.Tactic.Linarith
import Mathlib.Tactic.NormNum
import Mathlib.Tactic.Ring
/-! Property C58 (BMP output). -/

namespace Pdf

/-! ### Files -/

theorem BFile.write_length (f : BFile) (d : Bytes) (hd : d ≠ []) :
    (f.write d).content.length = max f.content.length (f.pos + d.length) := by
  unfold BFile.write
  rw [if_neg hd]
  simp only [List.length_append, List.length_take, List.length_replicate, List.length_drop]
  omega

theorem BFile.write_same (f : BFile) (d : Bytes) : (((f.write d).content).drop f.pos).take d.length = d := by
  unfold BFile.write
  by_cases hd : d = []
  · simp [hd]
  · rw [if_neg hd]
    have e : (List.take f.pos f.content ++ List.replicate (f.pos - f.content.length) (0 : UInt8)).length = f.pos := by
      simp only [List.length_append, List.length_take, List.length_replicate]; omega
    simp only [List.append_assoc]
    rw [← List.append_assoc, List.drop_left' e]
    simp

theorem BFile.write_other (f : BFile) (d : Bytes) (off n : Nat) (hl : off + n ≤ f.content.length)
    (hd : off + n ≤ f.pos ∨ f.pos + d.length ≤ off) :
    (((f.write d).content).drop off).take n = (f.content.drop off).take n := by
  unfold BFile.write
  by_cases hn : d = []
  · simp [hn]
  · rw [if_neg hn]
    apply List.ext_getElem?
    intro i
    simp only [List.getElem?_take, List.getElem?_drop]
    by_cases hi : i < n
    · simp only [hi, if_true]
      rcases hd with hd | hd
      · rw [List.append_assoc, List.append_assoc, List.getElem?_append_left (by simp; omega), List.getElem?_take, if_pos (by omega)]
      · rw [List.getElem?_append_right (by simp; omega)]
        simp only [List.length_append, List.length_take, List.length_replicate, List.getElem?_drop]
        congr 1; omega
    · simp [hi]

/-! ### Numbers -/

theorem leValue_leBytes (k n : Nat) : Spec.leValue (leBytes k n) = n % 256 ^ k := by
  induction k generalizing n with
  | zero => simp [leBytes, Spec.leValue, Nat.mod_one]
  | succ k ih =>
    simp only [leBytes, Spec.leValue, ih]
    have : (UInt8.ofNat (n % 256)).toNat = n % 256 := by simp
    rw [this, pow_succ, Nat.mul_comm (256 ^ k) 256, Nat.mod_mul]

theorem leBytes_length (k n : Nat) : (leBytes k n).length = k := by
  induction k generalizing n with
  | zero => rfl
  | succ k ih => simp [leBytes, ih]

theorem stride_eq (x : Nat) : align32 (((x : Int) + 7) / 8) = (((x + 31) / 32 * 4 : Nat) : Int) := by
  unfold align32; omega

/-! ### The header -/

/-- The number of colours in the colour table (BMPWriter/__init__.py:28-35). -/
def colours (bits : Nat) : Nat := if bits = 1 then 2 else if bits = 8 then 256 else 0

/-- The bytes of the headers that `BMPWriter` writes (BMPWriter/__init__.py:39-44). -/
def bmpHead (bits w h ncols : Nat) : Bytes :=
  [66, 77] ++ leBytes 4 (54 + ncols * 4 + (w * bits + 31) / 32 * 4 * h) ++ leBytes 2 0 ++ leBytes 2 0 ++ leBytes 4 (54 + ncols * 4) ++
  (leBytes 4 40 ++ leBytes 4 w ++ leBytes 4 h ++ leBytes 2 1 ++ leBytes 2 bits ++ leBytes 4 0 ++
    leBytes 4 ((w * bits + 31) / 32 * 4 * h) ++ leBytes 4 0 ++ leBytes 4 0 ++ leBytes 4 ncols ++ leBytes 4 0)

theorem bmpHead_length (bits w h ncols : Nat) : (bmpHead bits w h ncols).length = 54 := by
  simp [bmpHead, leBytes_length]

theorem bmpTable_length (bits : Nat) : (bmpTable (colours bits)).length = colours bits * 4 := by
  unfold colours
  split
  · decide
  · split
    · decide +kernel
    · decide

/-- The depths that the writer supports, and sizes that fit into the fields. -/
structure BmpFits (bits w h : Nat) : Prop where
  depth : bits = 1 ∨ bits = 8 ∨ bits = 24
  width : w < 2147483648
  height : h < 2147483648
  size : 54 + colours bits * 4 + (w * bits + 31) / 32 * 4 * h < 4294967296

theorem packI_ok {n : Int} (m : Nat) (h : n = m) (hm : m < 4294967296) : packI n = .ok (leBytes 4 m) := by
  subst h; unfold packI; rw [if_pos (by omega)]; rfl

theorem packi_ok (m : Nat) (hm : m < 2147483648) : packi m = .ok (leBytes 4 m) := by
  unfold packi; rw [if_pos (by omega)]
  congr 2; omega

theorem packH_ok {n : Int} (m : Nat) (h : n = m) (hm : m < 65536) : packH n = .ok (leBytes 2 m) := by
  subst h; unfold packH; rw [if_pos (by omega)]; rfl

theorem write_fresh (f : BFile) (d : Bytes) (hf : f.pos = f.content.length) :
    f.write d = ⟨f.content ++ d, f.content.length + d.length⟩ := by
  unfold BFile.write
  by_cases h : d = []
  · subst h; cases f; simp at hf; simp [hf]
  · rw [if_neg h, hf]; simp

theorem bmpInfo_ok (w h bits D n : Nat) (hw : w < 2147483648) (hh : h < 2147483648) (hb : bits < 65536) (hD : D < 4294967296)
    (hn : n < 4294967296) :
    bmpInfo w h bits D n = .ok (leBytes 4 40 ++ leBytes 4 w ++ leBytes 4 h ++ leBytes 2 1 ++ leBytes 2 bits ++ leBytes 4 0 ++
      leBytes 4 D ++ leBytes 4 0 ++ leBytes 4 0 ++ leBytes 4 n ++ leBytes 4 0) := by
  unfold bmpInfo
  rw [packI_ok (n := 40) 40 rfl (by omega), packi_ok w hw, packi_ok h hh, packH_ok (n := 1) 1 rfl (by omega), packH_ok bits rfl hb,
    packI_ok (n := 0) 0 rfl (by omega), packI_ok D rfl hD, packI_ok n rfl hn]
  rfl

theorem bmpHeader_ok (H D : Nat) (h : H + D < 4294967296) :
    bmpHeader H D = .ok ([66, 77] ++ leBytes 4 (H + D) ++ leBytes 2 0 ++ leBytes 2 0 ++ leBytes 4 H) := by
  unfold bmpHeader
  rw [packI_ok (n := (H : Int) + D) (H + D) (by push_cast; rfl) h, packH_ok (n := 0) 0 rfl (by omega), packI_ok H rfl (by omega)]
  rfl

theorem write_three (a b c : Bytes) :
    ((({} : BFile).write a).write b).write c = ⟨a ++ b ++ c, a.length + b.length + c.length⟩ := by
  rw [write_fresh {} a rfl, write_fresh _ b (by simp), write_fresh _ c (by simp)]
  simp

theorem bmpColours_ok (bits : Nat) (hd : bits = 1 ∨ bits = 8 ∨ bits = 24) : bmpColours bits = .ok (colours bits : Int) := by
  rcases hd with rfl | rfl | rfl <;> rfl

theorem colours_le (bits : Nat) : colours bits ≤ 256 := by unfold colours; split <;> (try split) <;> omega

theorem headersize_cast (n : Nat) : (14 : Int) + 40 + (n : Int) * 4 = ((54 + n * 4 : Nat) : Int) := by push_cast; omega

theorem bmpNew_of (bits w h n L : Int) (info header : Bytes) (hc : bmpColours bits = .ok n) (hL : align32 ((w * bits + 7) / 8) = L)
    (hi : bmpInfo w h bits (L * h) n = .ok info) (hh : bmpHeader (14 + 40 + n * 4) (L * h) = .ok header) :
    bmpNew bits w h = .ok
      { fp := ⟨header ++ info ++ bmpTable n, header.length + info.length + (bmpTable n).length⟩
        linesize := L, datasize := L * h, pos0 := (header.length + info.length + (bmpTable n).length : Nat)
        pos1 := (header.length + info.length + (bmpTable n).length : Nat) + L * h } := by
  unfold bmpNew
  simp only [hc, bind, Except.bind, hL, hi, hh, write_three]

theorem bmpNew_ok (bits w h : Nat) (hf : BmpFits bits w h) :
    bmpNew bits w h = .ok
      { fp := ⟨bmpHead bits w h (colours bits) ++ bmpTable (colours bits), 54 + colours bits * 4⟩
        linesize := ((w * bits + 31) / 32 * 4 : Nat)
        datasize := ((w * bits + 31) / 32 * 4 * h : Nat)
        pos0 := (54 + colours bits * 4 : Nat)
        pos1 := (54 + colours bits * 4 + (w * bits + 31) / 32 * 4 * h : Nat) } := by
  have hc := bmpColours_ok bits hf.depth
  have hcol := colours_le bits
  have hb : bits < 65536 := by rcases hf.depth with rfl | rfl | rfl <;> omega
  have hs := hf.size
  have hlen := bmpHead_length bits w h (colours bits)
  have e := stride_eq (w * bits)
  rw [Nat.cast_mul] at e
  have h1 := headersize_cast (colours bits)
  have h2 : (((w * bits + 31) / 32 * 4 : Nat) : Int) * (h : Int) = (((w * bits + 31) / 32 * 4 * h : Nat) : Int) := by
    rw [Nat.cast_mul _ h]
  have hi := bmpInfo_ok w h bits ((w * bits + 31) / 32 * 4 * h) (colours bits) hf.width hf.height hb (by omega) (by omega)
  have hh := bmpHeader_ok (54 + colours bits * 4) ((w * bits + 31) / 32 * 4 * h) hs
  rw [← h1, ← h2] at hh
  rw [← h2] at hi
  unfold bmpHead at hlen
  rw [List.length_append] at hlen
  rw [bmpNew_of _ _ _ _ _ _ _ hc e hi hh, hlen, bmpTable_length, h2, ← Nat.cast_add]
  rfl

theorem field_prefix (file : Bytes) (off len : Nat) (h : off + len ≤ 54) :
    Spec.bmpField file off len = Spec.bmpField (file.take 54) off len := by
  unfold Spec.bmpField
  congr 1
  apply List.ext_getElem?
  intro i
  simp only [List.getElem?_take, List.getElem?_drop]
  by_cases hi : i < len
  · simp only [hi, if_true]; rw [if_pos (by omega)]
  · simp [hi]

theorem head_fields (bits w h : Nat) (hf : BmpFits bits w h) (file : Bytes) (hh : file.take 54 = bmpHead bits w h (colours bits)) :
    Spec.bmpSize file = 54 + colours bits * 4 + (w * bits + 31) / 32 * 4 * h ∧ Spec.bmpOffset file = 54 + colours bits * 4 ∧
    Spec.bmpWidth file = w ∧ Spec.bmpHeight file = h ∧ Spec.bmpBits file = bits ∧ Spec.bmpField file 0 2 = 0x4d42 := by
  have hcol : colours bits ≤ 256 := by unfold colours; split <;> (try split) <;> omega
  have hb : bits < 65536 := by rcases hf.depth with rfl | rfl | rfl <;> omega
  have pre : ∀ off len, off + len ≤ 54 → Spec.bmpField file off len = Spec.bmpField (bmpHead bits w h (colours bits)) off len := by
    intro off len hl; rw [field_prefix file off len hl, hh]
  have d4 : ∀ n, leBytes 4 n = [UInt8.ofNat (n % 256), UInt8.ofNat (n / 256 % 256), UInt8.ofNat (n / 256 / 256 % 256),
      UInt8.ofNat (n / 256 / 256 / 256 % 256)] := fun n => rfl
  have v4 : ∀ n, n < 4294967296 → Spec.leValue [UInt8.ofNat (n % 256), UInt8.ofNat (n / 256 % 256), UInt8.ofNat (n / 256 / 256 % 256),
      UInt8.ofNat (n / 256 / 256 / 256 % 256)] = n := fun n hn => by
    rw [← d4, leValue_leBytes]; exact Nat.mod_eq_of_lt (by norm_num; exact hn)
  have d2 : ∀ n, leBytes 2 n = [UInt8.ofNat (n % 256), UInt8.ofNat (n / 256 % 256)] := fun n => rfl
  have v2 : ∀ n, n < 65536 → Spec.leValue [UInt8.ofNat (n % 256), UInt8.ofNat (n / 256 % 256)] = n := fun n hn => by
    rw [← d2, leValue_leBytes]; exact Nat.mod_eq_of_lt (by norm_num; exact hn)
  unfold Spec.bmpSize Spec.bmpOffset Spec.bmpWidth Spec.bmpHeight Spec.bmpBits
  rw [pre 2 4 (by omega), pre 10 4 (by omega), pre 18 4 (by omega), pre 22 4 (by omega), pre 28 2 (by omega), pre 0 2 (by omega)]
  have w' := hf.width
  have h' := hf.height
  have hs := hf.size
  have ho : 54 + colours bits * 4 < 4294967296 := by omega
  clear pre hh hcol
  unfold bmpHead
  generalize 54 + colours bits * 4 + (w * bits + 31) / 32 * 4 * h = S at *
  generalize 54 + colours bits * 4 = O at *
  generalize (w * bits + 31) / 32 * 4 * h = D at *
  generalize colours bits = n at *
  simp only [Spec.bmpField, d4, d2, List.cons_append, List.nil_append, List.drop_succ_cons, List.drop_zero, List.take_succ_cons,
    List.take_zero]
  exact ⟨v4 _ hs, v4 _ ho, v4 w (by omega), v4 h (by omega), v2 bits hb, rfl⟩

/-! ### Writing rows -/

theorem mul_step (ls : Nat) {a b : Nat} (h : a < b) : a * ls + ls ≤ b * ls := by
  have := Nat.mul_le_mul_right ls (show a + 1 ≤ b from h)
  rwa [Nat.add_mul, Nat.one_mul] at this

/-- The state of the writer after some rows: `done y` is the last thing written in row `y`. -/
structure BmpInv (H ls rb h : Nat) (head : Bytes) (done : Nat → Option Bytes) (w : BmpWriter) : Prop where
  linesize : w.linesize = ls
  pos1 : w.pos1 = (H + ls * h : Nat)
  front : w.fp.content.take H = head
  headLen : head.length = H
  rows : ∀ y d, done y = some d → y < h ∧ d.length = rb ∧ H + (h - 1 - y) * ls + rb ≤ w.fp.content.length ∧
    ((w.fp.content).drop (H + (h - 1 - y) * ls)).take rb = d
  short : w.fp.content.length ≤ H + ls * (h - 1) + rb
  top : ∀ d, done 0 = some d → w.fp.content.length = H + ls * (h - 1) + rb

theorem writeLine_inv {H ls rb h : Nat} {head : Bytes} {done : Nat → Option Bytes} {w : BmpWriter}
    (inv : BmpInv H ls rb h head done w) (hrb : rb ≤ ls) (hpos : 0 < rb) (y : Nat) (hy : y < h) (d : Bytes) (hd : d.length = rb) :
    ∃ w', w.writeLine y d = .ok w' ∧ BmpInv H ls rb h head (fun z => if z = y then some d else done z) w' := by
  have hseek : w.pos1 - ((y : Int) + 1) * w.linesize = ((H + (h - 1 - y) * ls : Nat) : Int) := by
    rw [inv.linesize, inv.pos1]
    obtain ⟨k, rfl⟩ : ∃ k, h = y + 1 + k := ⟨h - 1 - y, by omega⟩
    have : y + 1 + k - 1 - y = k := by omega
    rw [this]; push_cast; ring
  unfold BmpWriter.writeLine
  rw [hseek]
  unfold BFile.seek
  rw [if_neg (by omega)]
  simp only [bind, Except.bind, Int.toNat_natCast]
  refine ⟨_, rfl, ?_⟩
  set f : BFile := { w.fp with pos := H + (h - 1 - y) * ls } with hf
  have fc : f.content = w.fp.content := rfl
  have fp : f.pos = H + (h - 1 - y) * ls := rfl
  have hne : d ≠ [] := by rintro rfl; simp at hd; omega
  have hlen := f.write_length d hne
  have hHlen : H ≤ w.fp.content.length := by
    have := congrArg List.length inv.front
    rw [inv.headLen, List.length_take] at this; omega
  rw [fc, fp, hd] at hlen
  have hall : H + (h - 1 - y) * ls + ls ≤ H + ls * h := by
    have := mul_step ls (show h - 1 - y < h by omega)
    rw [Nat.mul_comm ls h]; omega
  refine ⟨inv.linesize, inv.pos1, ?_, inv.headLen, ?_, ?_, ?_⟩
  · have := f.write_other d 0 H (by rw [fc]; omega) (.inl (by rw [fp]; omega))
    simp only [List.drop_zero] at this
    rw [this, fc, inv.front]
  · intro z e hz
    by_cases hzy : z = y
    · subst hzy
      simp only [if_true, Option.some.injEq] at hz
      subst hz
      refine ⟨hy, hd, ?_, ?_⟩
      · simp only [hlen]; omega
      · have := f.write_same d
        rw [fp, hd] at this; exact this
    · simp only [hzy, if_false] at hz
      obtain ⟨z1, z2, z3, z4⟩ := inv.rows z e hz
      refine ⟨z1, z2, ?_, ?_⟩
      · simp only [hlen]; omega
      · rw [← z4]
        refine f.write_other d _ _ (by rw [fc]; exact z3) ?_
        rw [fp, hd]
        rcases Nat.lt_or_gt_of_ne hzy with hlt | hlt
        · right
          have := mul_step ls (show h - 1 - y < h - 1 - z by omega); omega
        · left
          have := mul_step ls (show h - 1 - z < h - 1 - y by omega); omega
  · simp only [hlen]
    have := inv.short
    have h3 : (h - 1 - y) * ls ≤ ls * (h - 1) := by
      rw [Nat.mul_comm ls]; exact Nat.mul_le_mul_right ls (by omega)
    omega
  · intro e he
    simp only [hlen]
    by_cases h0 : (0 : Nat) = y
    · subst h0
      have hs := inv.short
      rw [show h - 1 - 0 = h - 1 by omega, Nat.mul_comm (h - 1) ls]
      omega
    · simp only [h0, if_false] at he
      have := inv.top e he
      have h3 := mul_step ls (show h - 1 - y < h - 1 by omega)
      rw [Nat.mul_comm (h - 1) ls] at h3
      omega

theorem writeLines_inv {H ls rb h : Nat} {head : Bytes} {done : Nat → Option Bytes} {w : BmpWriter}
    (inv : BmpInv H ls rb h head done w) (hrb : rb ≤ ls) (hpos : 0 < rb) (calls : List (Nat × Bytes))
    (hc : ∀ c ∈ calls, c.1 < h ∧ c.2.length = rb) :
    ∃ w' done', w.writeLines (calls.map fun c => ((c.1 : Int), c.2)) = .ok w' ∧ BmpInv H ls rb h head done' w' ∧
      (∀ pre y d post, calls = pre ++ (y, d) :: post → (∀ c ∈ post, c.1 ≠ y) → done' y = some d) ∧
      (∀ y, (∀ c ∈ calls, c.1 ≠ y) → done' y = done y) := by
  induction calls generalizing w done with
  | nil => exact ⟨w, done, rfl, inv, by simp, fun _ _ => rfl⟩
  | cons c cs ih =>
    obtain ⟨y, d⟩ := c
    obtain ⟨hy, hd⟩ := hc (y, d) (by simp)
    obtain ⟨w1, e1, inv1⟩ := writeLine_inv inv hrb hpos y hy d hd
    obtain ⟨w2, done2, e2, inv2, p1, p2⟩ := ih inv1 fun c hm => hc c (by simp [hm])
    refine ⟨w2, done2, ?_, inv2, ?_, ?_⟩
    · simp only [List.map_cons, BmpWriter.writeLines, bind, Except.bind, e1]; exact e2
    · intro pre z e post hz hp
      cases pre with
      | nil =>
        simp only [List.nil_append, List.cons.injEq, Prod.mk.injEq] at hz
        obtain ⟨⟨rfl, rfl⟩, rfl⟩ := hz
        rw [p2 y hp]; simp
      | cons c' pre =>
        simp only [List.cons_append, List.cons.injEq] at hz
        exact p1 pre z e post hz.2 hp
    · intro z hz
      rw [p2 z fun c hm => hz c (by simp [hm])]
      have := hz (y, d) (by simp)
      simp only at this
      rw [if_neg fun e => this e.symm]

theorem rowBytes_le (w bits : Nat) : (w * bits + 7) / 8 ≤ (w * bits + 31) / 32 * 4 := by omega

/-- What a reader sees after any sequence of `write_line` calls with rows of the right length. -/
theorem bmp_calls (bits w h : Nat) (hf : BmpFits bits w h) (hw : 0 < w) (calls : List (Nat × Bytes))
    (hc : ∀ c ∈ calls, c.1 < h ∧ c.2.length = (w * bits + 7) / 8) :
    ∃ wr, ((bmpNew bits w h).bind fun b => b.writeLines (calls.map fun c => ((c.1 : Int), c.2))) = .ok wr ∧
      wr.fp.content.take (54 + colours bits * 4) = bmpHead bits w h (colours bits) ++ bmpTable (colours bits) ∧
      (∀ pre y d post, calls = pre ++ (y, d) :: post → (∀ c ∈ post, c.1 ≠ y) → Spec.bmpRow wr.fp.content y = d) ∧
      ((∃ c ∈ calls, c.1 = 0) → wr.fp.content.length =
        54 + colours bits * 4 + (w * bits + 31) / 32 * 4 * (h - 1) + (w * bits + 7) / 8) := by
  have hb : 0 < bits := by rcases hf.depth with rfl | rfl | rfl <;> omega
  have hpos : 0 < (w * bits + 7) / 8 := by
    have := Nat.mul_pos hw hb; omega
  have inv0 : BmpInv (54 + colours bits * 4) ((w * bits + 31) / 32 * 4) ((w * bits + 7) / 8) h
      (bmpHead bits w h (colours bits) ++ bmpTable (colours bits)) (fun _ => none)
      { fp := ⟨bmpHead bits w h (colours bits) ++ bmpTable (colours bits), 54 + colours bits * 4⟩
        linesize := ((w * bits + 31) / 32 * 4 : Nat)
        datasize := ((w * bits + 31) / 32 * 4 * h : Nat)
        pos0 := (54 + colours bits * 4 : Nat)
        pos1 := (54 + colours bits * 4 + (w * bits + 31) / 32 * 4 * h : Nat) } := by
    have hl : (bmpHead bits w h (colours bits) ++ bmpTable (colours bits)).length = 54 + colours bits * 4 := by
      rw [List.length_append, bmpHead_length, bmpTable_length]
    refine ⟨rfl, rfl, ?_, hl, by simp, ?_, by simp⟩
    · simp only; rw [← hl, List.take_length]
    · simp only [hl]; omega
  obtain ⟨wr, done, e, inv, p1, -⟩ := writeLines_inv inv0 (rowBytes_le w bits) hpos calls hc
  have ht : wr.fp.content.take 54 = bmpHead bits w h (colours bits) := by
    have := congrArg (List.take 54) inv.front
    rw [List.take_take, Nat.min_eq_left (by omega), List.take_left' (bmpHead_length _ _ _ _)] at this
    exact this
  obtain ⟨-, f2, f3, f4, f5, -⟩ := head_fields bits w h hf _ ht
  refine ⟨wr, ?_, inv.front, ?_, ?_⟩
  · rw [bmpNew_ok bits w h hf]; exact e
  · intro pre y d post hy hp
    have hd := p1 pre y d post hy hp
    unfold Spec.bmpRow Spec.bmpStride Spec.bmpRowBytes
    rw [f2, f3, f4, f5]
    exact (inv.rows y d hd).2.2.2
  · rintro ⟨c, hm, h0⟩
    obtain ⟨pre, d, post, hs, hp⟩ : ∃ pre d post, calls = pre ++ (0, d) :: post ∧ ∀ c ∈ post, c.1 ≠ 0 := by
      clear e inv p1 hc
      have hex : ∃ c ∈ calls, c.1 = 0 := ⟨c, hm, h0⟩
      clear hm h0 c
      induction calls with
      | nil => simp at hex
      | cons a as ih =>
        by_cases hx : ∃ c ∈ as, c.1 = 0
        · obtain ⟨c', m', z'⟩ := hx
          obtain ⟨pre, d, post, e1, e2⟩ := ih ⟨c', m', z'⟩
          exact ⟨a :: pre, d, post, by rw [e1]; rfl, e2⟩
        · obtain ⟨c, hm, h0⟩ := hex
          rcases List.mem_cons.1 hm with rfl | hm
          · exact ⟨[], c.2, as, by rw [← h0]; rfl, fun c' m' z' => hx ⟨c', m', z'⟩⟩
          · exact absurd ⟨c, hm, h0⟩ hx
    exact inv.top d (p1 pre 0 d post hs hp)

/-- **C58.** Rows written in any order, any number of times, are read back from the file where a BMP reader looks for them: row
`y` is the last one written with that number, whatever was written to the other rows. The header tells the dimensions. -/
theorem bmp_rows (bits w h : Nat) (hf : BmpFits bits w h) (hw : 0 < w) (calls : List (Nat × Bytes))
    (hc : ∀ c ∈ calls, c.1 < h ∧ c.2.length = (w * bits + 7) / 8) :
    ∃ wr, ((bmpNew bits w h).bind fun b => b.writeLines (calls.map fun c => ((c.1 : Int), c.2))) = .ok wr ∧
      Spec.bmpField wr.fp.content 0 2 = 0x4d42 ∧ Spec.bmpWidth wr.fp.content = w ∧ Spec.bmpHeight wr.fp.content = h ∧
      Spec.bmpBits wr.fp.content = bits ∧
      ∀ pre y d post, calls = pre ++ (y, d) :: post → (∀ c ∈ post, c.1 ≠ y) → Spec.bmpRow wr.fp.content y = d := by
  obtain ⟨wr, h1, h2, h3, -⟩ := bmp_calls bits w h hf hw calls hc
  have ht : wr.fp.content.take 54 = bmpHead bits w h (colours bits) := by
    have := congrArg (List.take 54) h2
    rw [List.take_take, Nat.min_eq_left (by omega), List.take_left' (bmpHead_length _ _ _ _)] at this
    exact this
  obtain ⟨-, -, f3, f4, f5, f6⟩ := head_fields bits w h hf _ ht
  exact ⟨wr, h1, f6, f3, f4, f5, h3⟩

/-- **C58, partial.** The size recorded in the header, compared with the length of the file once the top row was written: they
agree exactly when the rows need no padding. What is missing: the padding of the top row is never written. -/
theorem bmp_size_partial (bits w h : Nat) (hf : BmpFits bits w h) (hw : 0 < w) (calls : List (Nat × Bytes))
    (hc : ∀ c ∈ calls, c.1 < h ∧ c.2.length = (w * bits + 7) / 8) (h0 : ∃ c ∈ calls, c.1 = 0) :
    ∃ wr, ((bmpNew bits w h).bind fun b => b.writeLines (calls.map fun c => ((c.1 : Int), c.2))) = .ok wr ∧
      (Spec.bmpSize wr.fp.content = wr.fp.content.length ↔ 4 ∣ (w * bits + 7) / 8) ∧
      wr.fp.content.length ≤ Spec.bmpSize wr.fp.content ∧ Spec.bmpSize wr.fp.content < wr.fp.content.length + 4 := by
  obtain ⟨wr, h1, h2, -, h4⟩ := bmp_calls bits w h hf hw calls hc
  have ht : wr.fp.content.take 54 = bmpHead bits w h (colours bits) := by
    have := congrArg (List.take 54) h2
    rw [List.take_take, Nat.min_eq_left (by omega), List.take_left' (bmpHead_length _ _ _ _)] at this
    exact this
  obtain ⟨f1, -⟩ := head_fields bits w h hf _ ht
  have h4 := h4 h0
  obtain ⟨c, hm, hz⟩ := h0
  have hh : 0 < h := by have := (hc c hm).1; omega
  obtain ⟨k, rfl⟩ : ∃ k, h = k + 1 := ⟨h - 1, by omega⟩
  rw [Nat.add_sub_cancel] at h4
  rw [Nat.mul_add _ k 1, Nat.mul_one] at f1
  generalize (w * bits + 31) / 32 * 4 * k = M at *
  generalize w * bits = b at *
  refine ⟨wr, h1, ?_⟩
  rw [f1, h4]
  refine ⟨?_, ?_, ?_⟩ <;> omega

/-- **C58.** The colour table of a file for 1 or 8 bits maps the lowest pixel value to black, the highest to white and those between
to equally spaced greys. -/
theorem bmp_greys (bits w h : Nat) (hf : BmpFits bits w h) (hw : 0 < w) (calls : List (Nat × Bytes))
    (hc : ∀ c ∈ calls, c.1 < h ∧ c.2.length = (w * bits + 7) / 8) (hb : bits ≠ 24) (i : Nat) (hi : i < 2 ^ bits) :
    ∃ wr, ((bmpNew bits w h).bind fun b => b.writeLines (calls.map fun c => ((c.1 : Int), c.2))) = .ok wr ∧
      Spec.bmpColour wr.fp.content i =
        [UInt8.ofNat (i * 255 / (2 ^ bits - 1)), UInt8.ofNat (i * 255 / (2 ^ bits - 1)), UInt8.ofNat (i * 255 / (2 ^ bits - 1)), 0] := by
  obtain ⟨wr, h1, h2, -, -⟩ := bmp_calls bits w h hf hw calls hc
  refine ⟨wr, h1, ?_⟩
  have hlt : i < colours bits ∧ colours bits = 2 ^ bits := by
    rcases hf.depth with rfl | rfl | rfl
    · exact ⟨hi, rfl⟩
    · exact ⟨hi, rfl⟩
    · exact absurd rfl hb
  have e : Spec.bmpColour wr.fp.content i = ((bmpTable (colours bits)).drop (4 * i)).take 4 := by
    have h3 : ((wr.fp.content.take (54 + colours bits * 4)).drop (54 + 4 * i)).take 4 = Spec.bmpColour wr.fp.content i := by
      unfold Spec.bmpColour
      apply List.ext_getElem?
      intro j
      simp only [List.getElem?_take, List.getElem?_drop]
      by_cases hj : j < 4
      · simp only [hj, if_true]; rw [if_pos (by omega)]
      · simp [hj]
    rw [← h3, h2]
    congr 1
    rw [List.drop_append, bmpHead_length, List.drop_eq_nil_of_le (by rw [bmpHead_length]; omega)]
    simp
  rw [e]
  rcases hf.depth with rfl | rfl | rfl
  · have : ∀ i : Fin 2, ((bmpTable (colours 1)).drop (4 * i.1)).take 4 =
      [UInt8.ofNat (i.1 * 255 / (2 ^ 1 - 1)), UInt8.ofNat (i.1 * 255 / (2 ^ 1 - 1)), UInt8.ofNat (i.1 * 255 / (2 ^ 1 - 1)), 0] := by
      decide +kernel
    exact this ⟨i, hi⟩
  · have : ∀ i : Fin 256, ((bmpTable (colours 8)).drop (4 * i.1)).take 4 =
      [UInt8.ofNat (i.1 * 255 / (2 ^ 8 - 1)), UInt8.ofNat (i.1 * 255 / (2 ^ 8 - 1)), UInt8.ofNat (i.1 * 255 / (2 ^ 8 - 1)), 0] := by
      decide +kernel
    exact this ⟨i, hi⟩
  · exact absurd rfl hb

/-- **C58.** `write_all` of a 1-bit image stores every row of the image data as the same row of the file, whose header tells the dimensions. -/
theorem bmp_write_all (w h : Nat) (hf : BmpFits 1 w h) (hw : 0 < w) (data : Bytes) (hd : (w + 7) / 8 * h ≤ data.length) :
    ∃ wr, bmpWriteAll data w h ((w + 7) / 8 : Nat) = .ok wr ∧
      Spec.bmpWidth wr.fp.content = w ∧ Spec.bmpHeight wr.fp.content = h ∧ Spec.bmpBits wr.fp.content = 1 ∧
      ∀ y < h, Spec.bmpRow wr.fp.content y = (data.drop (y * ((w + 7) / 8))).take ((w + 7) / 8) := by
  set rb := (w + 7) / 8 with hrb
  have hsl : ∀ z, z < h → pySlice data ((z : Int) * (rb : Int)) ((z : Int) * (rb : Int) + (rb : Int)) = (data.drop (z * rb)).take rb := by
    intro z hz
    have h1 : z * rb + rb ≤ h * rb := mul_step rb hz
    rw [Nat.mul_comm rb h] at hd
    have e1 : ((z : Int) * (rb : Int)) = ((z * rb : Nat) : Int) := by push_cast; rfl
    have e2 : ((z : Int) * (rb : Int) + (rb : Int)) = ((z * rb + rb : Nat) : Int) := by push_cast; rfl
    rw [e2, e1]
    unfold pySlice sliceIdx
    rw [if_neg (by omega), if_neg (by omega), Int.toNat_natCast, Int.toNat_natCast, Nat.min_eq_left (by omega),
      Nat.min_eq_left (by omega)]
    congr 1; omega
  obtain ⟨wr, h1, -, e1, e2, e3, h3⟩ := bmp_rows 1 w h hf hw
    ((List.range h).map fun z => (z, (data.drop (z * rb)).take rb)) (by
      intro c hc
      obtain ⟨z, hz, rfl⟩ := List.mem_map.1 hc
      have hz := List.mem_range.1 hz
      refine ⟨hz, ?_⟩
      have h1 : z * rb + rb ≤ h * rb := mul_step rb hz
      rw [Nat.mul_comm rb h] at hd
      simp only [List.length_take, List.length_drop, Nat.mul_one]
      omega)
  refine ⟨wr, ?_, e1, e2, e3, ?_⟩
  · rw [← h1]
    unfold bmpWriteAll
    have e : (List.range (h : Int).toNat).map (fun (z : Nat) => ((z : Int), pySlice data ((z : Int) * (rb : Int)) ((z : Int) * (rb : Int) + (rb : Int))))
        = ((List.range h).map fun z => (z, (data.drop (z * rb)).take rb)).map fun c => ((c.1 : Int), c.2) := by
      rw [List.map_map, Int.toNat_natCast]
      apply List.map_congr_left
      intro z hz
      simp only [Function.comp]
      rw [hsl z (List.mem_range.1 hz)]
    rw [e]
    rfl
  · intro y hy
    refine h3 ((List.range y).map fun z => (z, (data.drop (z * rb)).take rb)) y _
      (((List.range (h - (y + 1))).map (y + 1 + ·)).map fun z => (z, (data.drop (z * rb)).take rb)) ?_ ?_
    · have : List.range h = List.range y ++ y :: (List.range (h - (y + 1))).map (y + 1 + ·) := by
        have e : h = (y + 1) + (h - (y + 1)) := by omega
        conv_lhs => rw [e, List.range_add, List.range_succ]
        simp
      conv_lhs => rw [this]
      simp
    · intro c hc
      obtain ⟨z, hz, rfl⟩ := List.mem_map.1 hc
      obtain ⟨k, -, rfl⟩ := List.mem_map.1 hz
      simp only; omega

example : BmpFits 1 10 3 := ⟨.inl rfl, by norm_num, by norm_num, by decide⟩
example : ∀ c ∈ [(2, [1, 2]), (0, [3, 4]), (2, [5, 6])], c.1 < 3 ∧ (c.2 : Bytes).length = (10 * 1 + 7) / 8 := by decide

/-- **C58, limit.** `write_all` ignores the number of bits it is given: the rows of a 24-bit image of 4 by 2 pixels overlap in the
file, and the top row is lost. -/
theorem bmp_all_depths :
    ∃ wr, bmpWriteAll (List.replicate 12 1 ++ List.replicate 12 2) 4 2 12 = .ok wr ∧
      Spec.bmpBits wr.fp.content = 1 ∧ wr.fp.content.drop 62 = List.replicate 12 2 ++ [1, 1, 1, 1] := by
  refine ⟨_, rfl, ?_, ?_⟩ <;> decide +kernel

end Pdf
