import Verif.Png
import Verif.PropsData
import Verif.Utf8
import Verif.CtorDen
/-!
# C56, C57: the PNG example
-/

namespace Neure

set_option linter.unusedSectionVars false
set_option linter.unusedSimpArgs false

/-! ## Specification -/

/-- The bits of a byte, least significant first. -/
def bitsOf (b : UInt8) : List Bool := (List.range 8).map fun i => b.toNat.testBit i

/-- One bit of the CRC-32 shift register (reflected polynomial `EDB88320`). -/
def crcBit (c : BitVec 32) (bit : Bool) : BitVec 32 :=
  if c.getLsbD 0 ^^ bit then (c >>> 1) ^^^ 0xEDB88320#32 else c >>> 1

/-- CRC-32, bit by bit: register preset to ones, result complemented. -/
def crc32 (l : List UInt8) : BitVec 32 :=
  ((l.flatMap bitsOf).foldl crcBit 0xFFFFFFFF#32) ^^^ 0xFFFFFFFF#32

/-- The first eight bytes of a PNG file. -/
def pngHead : List UInt8 := [0x89, 0x50, 0x4E, 0x47, 0x0D, 0x0A, 0x1A, 0x0A]

/-- `l` is a chunk: its data length (4 bytes, big-endian), a type of four bytes, the
data, the checksum of type and data (4 bytes, big-endian).  `t` is what is to be
reported about it. -/
def IsChunk (t : Trunk) (l : List UInt8) : Prop :=
  ∃ len ty crc, l = len ++ ty ++ t.data ++ crc ∧ IsBe 4 t.data.length len ∧
    ty.map (·.toNat) = [t.ancillary, t.priv, t.reserved, t.safeCopy] ∧
    IsBe 4 t.crcValue crc ∧ t.crcValue = (crc32 (ty ++ t.data)).toNat

/-- `l` is a sequence of chunks. -/
inductive IsChunks : List Trunk → List UInt8 → Prop where
  | nil : IsChunks [] []
  | cons {t ts a b} : IsChunk t a → IsChunks ts b → IsChunks (t :: ts) (a ++ b)

/-- `l` begins with a data length `n` but has fewer bytes after it than the chunk
needs: only `m < n + 8`. -/
def Truncated (l : List UInt8) (n m : Nat) : Prop :=
  ∃ len rest, l = len ++ rest ∧ IsBe 4 n len ∧ m = rest.length ∧ m < n + 8

/-- `l` begins with a chunk whose checksum is wrong. -/
def BadChunk (l : List UInt8) : Prop :=
  ∃ len ty dat crc post v, l = len ++ ty ++ dat ++ crc ++ post ∧ IsBe 4 dat.length len ∧ ty.length = 4 ∧
    IsBe 4 v crc ∧ v ≠ (crc32 (ty ++ dat)).toNat

/-! ## The checksum -/

def stepB (c : BitVec 32) : BitVec 32 :=
  if c.getLsbD 0 then 0xEDB88320#32 ^^^ (c >>> 1) else c >>> 1

theorem stepB_xor (x y : BitVec 32) : stepB (x ^^^ y) = stepB x ^^^ stepB y := by
  unfold stepB
  rw [BitVec.getLsbD_xor, BitVec.ushiftRight_xor_distrib]
  cases x.getLsbD 0 <;> cases y.getLsbD 0 <;> simp
  · ac_rfl
  · ac_rfl
  · rw [show ∀ a b c : BitVec 32, a ^^^ b ^^^ (a ^^^ c) = (a ^^^ a) ^^^ (b ^^^ c) by intros; ac_rfl]
    simp

theorem crcBit_eq (c : BitVec 32) (b : Bool) : crcBit c b = stepB (c ^^^ (BitVec.ofBool b).zeroExtend 32) := by
  unfold crcBit stepB
  have h1 : (c ^^^ (BitVec.ofBool b).zeroExtend 32) >>> 1 = c >>> 1 := by
    rw [BitVec.ushiftRight_xor_distrib]
    cases b <;> simp
  rw [h1, BitVec.getLsbD_xor]
  cases b <;> simp [BitVec.xor_comm]

def stepsB : Nat → BitVec 32 → BitVec 32
  | 0, c => c
  | k + 1, c => stepsB k (stepB c)

theorem stepsB_xor (k : Nat) (x y : BitVec 32) : stepsB k (x ^^^ y) = stepsB k x ^^^ stepsB k y := by
  induction k generalizing x y with
  | zero => rfl
  | succ k ih => rw [stepsB, stepB_xor, ih]; rfl

theorem stepB_shift (z : BitVec 32) (h : z.getLsbD 31 = false) : stepB (z <<< 1) = z := by
  unfold stepB
  rw [if_neg (by simp)]
  ext i hi
  simp only [BitVec.getElem_ushiftRight, BitVec.getLsbD_shiftLeft]
  by_cases hi' : i = 31
  · subst hi'
    simp
    rw [BitVec.getLsbD_eq_getElem (by omega)] at h
    exact h
  · rw [show 1 + i - 1 = i by omega, BitVec.getLsbD_eq_getElem hi]
    simp
    omega

theorem stepsB_shift (k : Nat) (z : BitVec 32) (h : ∀ i, 32 - k ≤ i → z.getLsbD i = false) :
    stepsB k (z <<< k) = z := by
  induction k with
  | zero => simp [stepsB]
  | succ k ih =>
    rw [stepsB, show z <<< (k + 1) = (z <<< k) <<< 1 by rw [BitVec.shiftLeft_add], stepB_shift, ih]
    · intro i hi; exact h i (by omega)
    · rw [BitVec.getLsbD_shiftLeft, h _ (by omega)]; simp

/-- The word with these bits, least significant first. -/
def bitsVal : List Bool → BitVec 32
  | [] => 0
  | b :: l => (BitVec.ofBool b).zeroExtend 32 ^^^ (bitsVal l <<< 1)

theorem getLsbD_bitsVal (l : List Bool) (i : Nat) (hi : i < 32) :
    (bitsVal l).getLsbD i = (l[i]?).getD false := by
  induction l generalizing i with
  | nil => simp [bitsVal]
  | cons b l ih =>
    rw [bitsVal, BitVec.getLsbD_xor, BitVec.getLsbD_shiftLeft]
    cases i with
    | zero => cases b <;> simp
    | succ i =>
      rw [show i + 1 - 1 = i by omega, ih i (by omega)]
      cases b <;> simp [hi]

theorem foldl_crcBit (l : List Bool) (c : BitVec 32) (h : l.length ≤ 32) :
    l.foldl crcBit c = stepsB l.length (c ^^^ bitsVal l) := by
  induction l generalizing c with
  | nil => simp [bitsVal, stepsB]
  | cons b l ih =>
    simp only [List.length_cons] at h
    rw [List.foldl_cons, ih _ (by omega), List.length_cons, stepsB, bitsVal, ← BitVec.xor_assoc, stepB_xor,
      ← crcBit_eq, stepB_shift]
    rw [getLsbD_bitsVal _ _ (by omega), List.getElem?_eq_none (by omega)]; rfl

theorem bitsVal_bitsOf (b : UInt8) : bitsVal (bitsOf b) = b.toBitVec.zeroExtend 32 := by
  ext i hi
  rw [← BitVec.getLsbD_eq_getElem, getLsbD_bitsVal _ _ hi]
  simp only [bitsOf, List.getElem?_map, List.getElem?_range]
  by_cases h : i < 8
  · simp [h, BitVec.getLsbD, hi, BitVec.getElem_setWidth]
  · have : i < 2 ^ 32 := by omega
    simp [h, List.getElem?_eq_none, BitVec.getElem_setWidth, BitVec.getLsbD_of_ge _ _ (show 8 ≤ i by omega)]

theorem crcStep_bits (c : UInt32) : (crcStep c).toBitVec = stepB c.toBitVec := by
  unfold crcStep stepB
  have h : (c &&& 1 = 1) ↔ c.toBitVec.getLsbD 0 = true := by
    rw [← UInt32.toBitVec_inj, UInt32.toBitVec_and]
    constructor
    · intro h
      have := congrArg (fun x : BitVec 32 => x.getLsbD 0) h
      simpa using this
    · intro h
      ext i hi
      rw [BitVec.getElem_and]
      cases i with
      | zero => simpa using h
      | succ i => simp [BitVec.getElem_one]
  by_cases hc : c.toBitVec.getLsbD 0 = true
  · rw [if_pos (h.mpr hc), if_pos hc]; simp
  · rw [if_neg (fun x => hc (h.mp x)), if_neg hc]; simp

theorem crcSteps_bits (k : Nat) (c : UInt32) : (crcSteps k c).toBitVec = stepsB k c.toBitVec := by
  induction k generalizing c with
  | zero => rfl
  | succ k ih => rw [crcSteps, ih, crcStep_bits]; rfl

theorem table_byte (x : BitVec 32) :
    stepsB 8 x = stepsB 8 (x &&& 0xff#32) ^^^ (x >>> 8) := by
  have h : x = (x &&& 0xff#32) ^^^ ((x >>> 8) <<< 8) := by
    ext i hi
    simp only [BitVec.getElem_xor, BitVec.getElem_and, BitVec.getElem_shiftLeft, BitVec.getElem_ushiftRight]
    by_cases h8 : i < 8
    · have : (0xff#32)[i] = true := by
        revert i; decide
      simp [h8, this]
    · have : (0xff#32)[i] = false := by
        revert i; decide
      simp [h8, this, show 8 + (i - 8) = i by omega, BitVec.getLsbD_eq_getElem hi]
  conv => lhs; rw [h]
  rw [stepsB_xor, stepsB_shift]
  intro i hi
  rw [BitVec.getLsbD_ushiftRight, BitVec.getLsbD_of_ge _ _ (by omega)]

theorem crcTable_get (x : UInt32) :
    crcTable[(x &&& 0xff).toNat]? = some (crcSteps 8 (x &&& 0xff)) := by
  have h : (x &&& 0xff).toNat < 256 := by
    rw [UInt32.toNat_and]
    exact Nat.lt_of_le_of_lt Nat.and_le_right (by decide)
  unfold crcTable
  rw [List.getElem?_map, List.getElem?_range h]
  simp

theorem crcLoop_eq (buff : List UInt8) (c : UInt32) :
    crcLoop crcTable c buff = some ⟨(buff.flatMap bitsOf).foldl crcBit c.toBitVec⟩ := by
  induction buff generalizing c with
  | nil => rfl
  | cons b l ih =>
    rw [crcLoop, crcTable_get]
    simp only [ih, List.flatMap_cons, List.foldl_append, Option.some.injEq]
    congr 2
    rw [foldl_crcBit _ _ (by simp [bitsOf]), show (bitsOf b).length = 8 by simp [bitsOf], bitsVal_bitsOf,
      table_byte, UInt32.toBitVec_xor, crcSteps_bits, UInt32.toBitVec_and, UInt32.toBitVec_xor]
    congr 1
    rw [BitVec.ushiftRight_xor_distrib]
    have : BitVec.zeroExtend 32 b.toBitVec >>> 8 = 0#32 := by
      ext i hi
      simp [BitVec.getElem_ushiftRight]
    rw [this]
    simp

/-- **C57.** The table-driven checksum of the PNG example is CRC-32 as defined bit
by bit; it never indexes outside its table. -/
theorem C57_table_crc_is_crc32 (l : List UInt8) : calcCrc l = some ⟨crc32 l⟩ := by
  rw [calcCrc, crcLoop_eq]
  rfl

/-- The published check value of CRC-32: that of the digits `1` to `9`. -/
example : crc32 [49, 50, 51, 52, 53, 54, 55, 56, 57] = 0xCBF43926#32 := by decide +kernel

theorem stepB_zero {z : BitVec 32} (h : stepB z = 0#32) : z = 0#32 := by
  unfold stepB at h
  split at h
  · have := congrArg (fun x : BitVec 32 => x.getLsbD 31) h
    simp at this
  · rename_i h0
    ext i hi
    cases i with
    | zero => simpa [BitVec.getLsbD_eq_getElem] using h0
    | succ i =>
      have := congrArg (fun x : BitVec 32 => x.getLsbD i) h
      rw [BitVec.getLsbD_ushiftRight, Nat.add_comm, BitVec.getLsbD_eq_getElem hi] at this
      simpa using this

theorem xor_zero_eq {x y : BitVec 32} (h : x ^^^ y = 0#32) : x = y := by
  have : x ^^^ y ^^^ y = 0#32 ^^^ y := by rw [h]
  simpa [BitVec.xor_assoc] using this

theorem stepB_inj {x y : BitVec 32} (h : stepB x = stepB y) : x = y := by
  apply xor_zero_eq
  apply stepB_zero
  rw [stepB_xor, h, BitVec.xor_self]

theorem stepsB_inj {k : Nat} {x y : BitVec 32} (h : stepsB k x = stepsB k y) : x = y := by
  induction k generalizing x y with
  | zero => exact h
  | succ k ih => exact stepB_inj (ih h)

theorem foldl_crcBit_inj (l : List Bool) {x y : BitVec 32} (h : l.foldl crcBit x = l.foldl crcBit y) : x = y := by
  induction l generalizing x y with
  | nil => exact h
  | cons b l ih =>
    have := ih h
    rw [crcBit_eq, crcBit_eq] at this
    have := stepB_inj this
    have h2 : x ^^^ (BitVec.ofBool b).zeroExtend 32 ^^^ (BitVec.ofBool b).zeroExtend 32 =
      y ^^^ (BitVec.ofBool b).zeroExtend 32 ^^^ (BitVec.ofBool b).zeroExtend 32 := by rw [this]
    simpa [BitVec.xor_assoc] using h2

theorem bitsVal_inj {l m : List Bool} (hl : l.length = m.length) (h32 : l.length ≤ 32)
    (h : bitsVal l = bitsVal m) : l = m := by
  apply List.ext_getElem hl
  intro i h1 h2
  have := congrArg (fun x : BitVec 32 => x.getLsbD i) h
  simp only [getLsbD_bitsVal _ _ (show i < 32 by omega)] at this
  simpa [h1, h2] using this

theorem length_bits (l : List UInt8) : (l.flatMap bitsOf).length = 8 * l.length := by
  induction l with
  | nil => rfl
  | cons b l ih => simp [ih, bitsOf]; omega

theorem bitsOf_inj {a b : UInt8} (h : bitsOf a = bitsOf b) : a = b := by
  have h1 := bitsVal_bitsOf a
  rw [h, bitsVal_bitsOf b] at h1
  have h2 := congrArg BitVec.toNat h1
  simp only [BitVec.toNat_setWidth, UInt8.toNat_toBitVec] at h2
  have ha := a.toNat_lt
  have hb := b.toNat_lt
  rw [Nat.mod_eq_of_lt (by omega), Nat.mod_eq_of_lt (by omega)] at h2
  exact UInt8.toNat_inj.mp h2.symm

theorem bits_inj {l m : List UInt8} (hl : l.length = m.length) (h : l.flatMap bitsOf = m.flatMap bitsOf) : l = m := by
  induction l generalizing m with
  | nil => cases m with
    | nil => rfl
    | cons => simp at hl
  | cons a l ih => cases m with
    | nil => simp at hl
    | cons b m =>
      simp only [List.flatMap_cons] at h
      obtain ⟨h1, h2⟩ := List.append_inj h (by simp [bitsOf])
      rw [bitsOf_inj h1, ih (by simpa using hl) h2]

/-- **C57 (what the checksum detects).** Replacing up to four consecutive bytes by
other bytes always changes the checksum. -/
theorem C57_crc_detects_bursts (pre a b post : List UInt8) (hl : a.length = b.length) (h4 : a.length ≤ 4)
    (hne : a ≠ b) : crc32 (pre ++ a ++ post) ≠ crc32 (pre ++ b ++ post) := by
  intro h
  apply hne
  have hx : ∀ x y : BitVec 32, x ^^^ 0xFFFFFFFF#32 = y ^^^ 0xFFFFFFFF#32 → x = y := by
    intro x y h
    have h2 : x ^^^ 0xFFFFFFFF#32 ^^^ 0xFFFFFFFF#32 = y ^^^ 0xFFFFFFFF#32 ^^^ 0xFFFFFFFF#32 := by rw [h]
    rw [BitVec.xor_assoc, BitVec.xor_assoc, BitVec.xor_self, BitVec.xor_zero, BitVec.xor_zero] at h2
    exact h2
  have h := hx _ _ h
  simp only [List.flatMap_append, List.foldl_append] at h
  have h := foldl_crcBit_inj _ h
  generalize List.foldl crcBit (0xFFFFFFFF#32) (List.flatMap bitsOf pre) = c at h
  rw [foldl_crcBit (a.flatMap bitsOf) _ (by rw [length_bits]; omega),
    foldl_crcBit (b.flatMap bitsOf) _ (by rw [length_bits]; omega), length_bits, length_bits, hl] at h
  have h := stepsB_inj h
  have h : bitsVal (a.flatMap bitsOf) = bitsVal (b.flatMap bitsOf) := by
    have h2 : c ^^^ (c ^^^ bitsVal (a.flatMap bitsOf)) = c ^^^ (c ^^^ bitsVal (b.flatMap bitsOf)) := by rw [h]
    rwa [← BitVec.xor_assoc, ← BitVec.xor_assoc, BitVec.xor_self, BitVec.zero_xor, BitVec.zero_xor] at h2
  exact bits_inj hl (bitsVal_inj (by rw [length_bits, length_bits, hl]) (by rw [length_bits]; omega) h)

/-- Hypotheses met: one bit flipped in the middle of `IEND`. -/
example : crc32 ([73] ++ [69] ++ [78, 68]) ≠ crc32 ([73] ++ [68] ++ [78, 68]) :=
  C57_crc_detects_bursts _ _ _ _ rfl (by decide) (by decide)

/-! ## Reading one field -/

theorem origSub_at (pre a b : List UInt8) : origSub (pre ++ (a ++ b)) pre.length a.length = .ok a :=
  origSub_ok.mpr ⟨pre, b, by simp, blen_bytes _, blen_bytes _⟩

theorem pngParse_eq (k : Nat) (f : Mapper (List UInt8) PVal) (pre rest : List UInt8) :
    pngParse k f (pre ++ rest) pre.length =
      if k ≤ rest.length then
        match f (rest.take k) with
        | .ok v => some (.ok v (pre.length + k))
        | .err e => some (.err e (pre.length + k))
        | .panic => some .panic
      else some (.err .consume pre.length) := by
  unfold pngParse pngField
  have hb : blen (pre ++ rest) = pre.length + rest.length := by rw [blen_bytes]; simp
  simp only [con, conStep, tryMat, matWith, parse, step, consumeParse, remK, hb, invokeK, caseM, caseC, caseT, caseR,
    newSpanInc]
  rw [if_pos (by omega), show pre.length + rest.length - pre.length = rest.length by omega]
  by_cases h : k ≤ rest.length
  · have h2 : origSub (pre ++ rest) pre.length k = .ok (rest.take k) := by
      have := origSub_at pre (rest.take k) (rest.drop k)
      rwa [List.take_append_drop, List.length_take, Nat.min_eq_left h] at this
    simp only [ge_iff_le, h, if_true, pngH, h2]
    rcases f (rest.take k) with _ | _ | _ <;> rfl
  · simp [h]

theorem pngUint_ok (pre b rest : List UInt8) :
    pngUint b.length (pre ++ (b ++ rest)) pre.length = some (.ok (leValue b.reverse) (pre.length + b.length)) := by
  simp [pngUint, pngParse_eq, beNum, fromBeU, firstChunk]

theorem pngUint_err (k : Nat) (pre rest : List UInt8) (h : rest.length < k) :
    pngUint k (pre ++ rest) pre.length = some (.err .consume pre.length) := by
  simp [pngUint, pngParse_eq, show ¬ k ≤ rest.length by omega]

theorem pngBytes_ok (pre b rest : List UInt8) :
    pngBytes b.length (pre ++ (b ++ rest)) pre.length = some (.ok b (pre.length + b.length)) := by
  simp [pngBytes, pngParse_eq, fixedSizeOutSize, fixedSize]

theorem pngBytes_err (k : Nat) (pre rest : List UInt8) (h : rest.length < k) :
    pngBytes k (pre ++ rest) pre.length = some (.err .consume pre.length) := by
  simp [pngBytes, pngParse_eq, fixedSizeOutSize, show ¬ k ≤ rest.length by omega]

theorem pngByte_ok (pre rest : List UInt8) (o : Nat) (d : List UInt8) (b : UInt8)
    (hd : d = pre ++ b :: rest) (ho : o = pre.length) :
    pngUint 1 d o = some (.ok b.toNat (o + 1)) := by
  subst hd ho
  have := pngUint_ok pre [b] rest
  simpa [leValue] using this

/-- Where `Trunk::new` stops when only `m` bytes are left of the `n + 8` it needs. -/
def cutOffAt (m n : Nat) : Nat := if m < 4 then m else if m < 4 + n then 4 else 4 + n

theorem trunkNew_err (n : Nat) (pre rest : List UInt8) (h : rest.length < 8 + n) :
    trunkNew (pre ++ rest) n pre.length = some (.err .consume (pre.length + cutOffAt rest.length n)) := by
  have e1 : ∀ (pre rest : List UInt8) (o : Nat), rest = [] → o = pre.length →
      pngUint 1 (pre ++ rest) o = some (.err .consume o) := by
    intro pre rest o h ho
    subst ho
    exact pngUint_err 1 _ _ (by simp [h])
  unfold trunkNew
  match rest with
  | [] => rw [e1 _ _ _ rfl rfl]; simp [caseR, cutOffAt]
  | [a] =>
    rw [pngByte_ok pre [] _ _ a rfl rfl]
    simp only [caseR]
    rw [show pre ++ [a] = (pre ++ [a]) ++ [] by simp, e1 _ _ _ rfl (by simp)]; simp [cutOffAt]
  | [a, b] =>
    rw [pngByte_ok pre _ _ _ a rfl rfl]
    simp only [caseR]
    rw [pngByte_ok (pre ++ [a]) [] _ _ b (by simp) (by simp)]
    simp only [caseR]
    rw [show pre ++ [a, b] = (pre ++ [a, b]) ++ [] by simp, e1 _ _ _ rfl (by simp)]; simp [cutOffAt]
  | [a, b, c] =>
    rw [pngByte_ok pre _ _ _ a rfl rfl]
    simp only [caseR]
    rw [pngByte_ok (pre ++ [a]) [c] _ _ b (by simp) (by simp)]
    simp only [caseR]
    rw [pngByte_ok (pre ++ [a, b]) [] _ _ c (by simp) (by simp)]
    simp only [caseR]
    rw [show pre ++ [a, b, c] = (pre ++ [a, b, c]) ++ [] by simp, e1 _ _ _ rfl (by simp)]; simp [cutOffAt]
  | a :: b :: c :: e :: l =>
    rw [pngByte_ok pre _ _ _ a rfl rfl]
    simp only [caseR]
    rw [pngByte_ok (pre ++ [a]) (c :: e :: l) _ _ b (by simp) (by simp)]
    simp only [caseR]
    rw [pngByte_ok (pre ++ [a, b]) (e :: l) _ _ c (by simp) (by simp)]
    simp only [caseR]
    rw [pngByte_ok (pre ++ [a, b, c]) l _ _ e (by simp) (by simp)]
    simp only [caseR]
    simp only [List.length_cons] at h
    have hl : pre ++ a :: b :: c :: e :: l = (pre ++ [a, b, c, e]) ++ l := by simp
    have ho : pre.length + 1 + 1 + 1 + 1 = (pre ++ [a, b, c, e]).length := by simp
    by_cases hn : l.length < n
    · rw [hl, ho, pngBytes_err _ _ _ hn]
      simp only [List.length_append, List.length_cons, List.length_nil, cutOffAt]
      rw [if_neg (by omega), if_pos (by omega)]
    · obtain ⟨dat, post, rfl, hlen⟩ : ∃ dat post, l = dat ++ post ∧ dat.length = n :=
        ⟨l.take n, l.drop n, by simp, by simp; omega⟩
      subst hlen
      rw [hl, ho, pngBytes_ok]
      simp only
      have h2 : origSub (pre ++ [a, b, c, e] ++ (dat ++ post)) pre.length
          ((pre ++ [a, b, c, e]).length + dat.length - pre.length) = .ok ([a, b, c, e] ++ dat) := by
        have := origSub_at pre ([a, b, c, e] ++ dat) post
        rw [show ([a, b, c, e] ++ dat).length = (pre ++ [a, b, c, e]).length + dat.length - pre.length by
          simp; omega] at this
        simpa using this
      rw [h2]
      simp only [List.length_append] at h
      have h3 := pngUint_err 4 (pre ++ [a, b, c, e] ++ dat) post (by omega)
      rw [List.length_append, List.append_assoc] at h3
      simp only
      rw [h3]
      simp only [cutOffAt, List.length_append, List.length_cons, List.length_nil]
      rw [if_neg (by omega), if_neg (by omega)]
      congr 2; omega

theorem trunkNew_ok (pre dat crc post : List UInt8) (a b c e : UInt8) (hcrc : crc.length = 4) :
    trunkNew (pre ++ ([a, b, c, e] ++ dat ++ crc ++ post)) dat.length pre.length =
      if leValue crc.reverse = (crc32 ([a, b, c, e] ++ dat)).toNat then
        some (.ok ⟨a.toNat, b.toNat, c.toNat, e.toNat, leValue crc.reverse, dat⟩ (pre.length + (8 + dat.length)))
      else some .panic := by
  unfold trunkNew
  rw [pngByte_ok pre (b :: c :: e :: (dat ++ crc ++ post)) _ _ a (by simp) rfl]
  simp only [caseR]
  rw [pngByte_ok (pre ++ [a]) (c :: e :: (dat ++ crc ++ post)) _ _ b (by simp) (by simp)]
  simp only [caseR]
  rw [pngByte_ok (pre ++ [a, b]) (e :: (dat ++ crc ++ post)) _ _ c (by simp) (by simp)]
  simp only [caseR]
  rw [pngByte_ok (pre ++ [a, b, c]) (dat ++ crc ++ post) _ _ e (by simp) (by simp)]
  simp only [caseR]
  have hl : pre ++ ([a, b, c, e] ++ dat ++ crc ++ post) = (pre ++ [a, b, c, e]) ++ (dat ++ (crc ++ post)) := by
    simp
  have ho : pre.length + 1 + 1 + 1 + 1 = (pre ++ [a, b, c, e]).length := by simp
  rw [hl, ho, pngBytes_ok]
  simp only
  have h2 : origSub (pre ++ [a, b, c, e] ++ (dat ++ (crc ++ post))) pre.length
      ((pre ++ [a, b, c, e]).length + dat.length - pre.length) = .ok ([a, b, c, e] ++ dat) := by
    have := origSub_at pre ([a, b, c, e] ++ dat) (crc ++ post)
    rw [show ([a, b, c, e] ++ dat).length = (pre ++ [a, b, c, e]).length + dat.length - pre.length by
      simp; omega] at this
    simpa using this
  rw [h2]
  have h3 := pngUint_ok (pre ++ [a, b, c, e] ++ dat) crc post
  rw [List.length_append, List.append_assoc, hcrc] at h3
  simp only
  rw [h3, C57_table_crc_is_crc32]
  simp only [UInt32.toNat_ofBitVec, ne_eq, ite_not]
  congr 3
  simp; omega

/-! ## The whole file -/

theorem isBe_value {k v : Nat} {b : List UInt8} (h : IsBe k v b) : b.length = k ∧ leValue b.reverse = v :=
  ⟨h.1, isLe_leValue (isBe_reverse.mp h)⟩

theorem value_isBe (b : List UInt8) : IsBe b.length (leValue b.reverse) b := by
  have := leValue_isLe b.reverse
  rw [List.length_reverse] at this
  exact isBe_reverse.mpr this

theorem four {α : Type} {l : List α} (h : l.length = 4) : ∃ a b c e, l = [a, b, c, e] := by
  match l, h with
  | [a, b, c, e], _ => exact ⟨a, b, c, e, rfl⟩

theorem pngLoop_chunk {t : Trunk} {a : List UInt8} (h : IsChunk t a) (pre post : List UInt8) (n : Nat)
    (acc : List Trunk) :
    pngLoop (pre ++ (a ++ post)) (n + 1) acc pre.length =
      pngLoop (pre ++ (a ++ post)) n (acc ++ [t]) (pre.length + a.length) := by
  obtain ⟨len, ty, crc, rfl, h1, h2, h3, h4⟩ := h
  obtain ⟨l1, e1⟩ := isBe_value h1
  obtain ⟨l3, e3⟩ := isBe_value h3
  obtain ⟨x, y, z, w, rfl⟩ : ∃ x y z w, ty = [x, y, z, w] := four (by
    have := congrArg List.length h2; simpa using this)
  simp only [List.map_cons, List.map_nil, List.cons.injEq, and_true] at h2
  have hu := pngUint_ok pre len ([x, y, z, w] ++ t.data ++ crc ++ post)
  have ht := trunkNew_ok (pre ++ len) t.data crc post x y z w l3
  rw [e3, if_pos h4] at ht
  rw [l1, e1] at hu
  rw [List.append_assoc, List.length_append, l1] at ht
  have hd : pre ++ (len ++ [x, y, z, w] ++ t.data ++ crc ++ post) =
      pre ++ (len ++ ([x, y, z, w] ++ t.data ++ crc ++ post)) := by simp
  rw [hd, pngLoop, hu]
  simp only [caseR]
  rw [ht]
  simp only [h2.1, h2.2.1, h2.2.2.1, h2.2.2.2]
  congr 1
  simp; omega

theorem pngLoop_chunks {ts : List Trunk} {body : List UInt8} (h : IsChunks ts body) (pre post : List UInt8)
    (n : Nat) (acc : List Trunk) :
    pngLoop (pre ++ (body ++ post)) (ts.length + n) acc pre.length =
      pngLoop (pre ++ (body ++ post)) n (acc ++ ts) (pre.length + body.length) := by
  induction h generalizing pre acc n with
  | nil => simp
  | @cons t ts a b ha hb ih =>
    have := pngLoop_chunk ha pre (b ++ post) (ts.length + n) acc
    rw [List.length_cons, show ts.length + 1 + n = ts.length + n + 1 by omega, List.append_assoc, this]
    have := ih (pre ++ a) n (acc ++ [t])
    simp only [List.append_assoc, List.length_append] at this
    rw [this]
    simp [Nat.add_assoc]

theorem pngLoop_short (pre tail : List UInt8) (h : tail.length < 4) (n : Nat) (acc : List Trunk) :
    pngLoop (pre ++ tail) (n + 1) acc pre.length = some (.ok acc pre.length) := by
  rw [pngLoop, pngUint_err 4 _ _ h]; rfl

theorem pngLoop_truncated (pre tail : List UInt8) (k m : Nat) (h : Truncated tail k m) (n : Nat) (acc : List Trunk) :
    pngLoop (pre ++ tail) (n + 1) acc pre.length = some (.err .consume (pre.length + 4 + cutOffAt m k)) := by
  obtain ⟨len, rest, rfl, h1, rfl, h2⟩ := h
  obtain ⟨l1, e1⟩ := isBe_value h1
  have hu := pngUint_ok pre len rest
  rw [l1, e1] at hu
  rw [pngLoop, hu]
  simp only [caseR]
  have := trunkNew_err k (pre ++ len) rest (by omega)
  rw [List.append_assoc, List.length_append, l1] at this
  rw [this]

theorem pngLoop_bad (pre tail : List UInt8) (h : BadChunk tail) (n : Nat) (acc : List Trunk) :
    pngLoop (pre ++ tail) (n + 1) acc pre.length = some .panic := by
  obtain ⟨len, ty, dat, crc, post, v, rfl, h1, h2, h3, h4⟩ := h
  obtain ⟨l1, e1⟩ := isBe_value h1
  obtain ⟨l3, e3⟩ := isBe_value h3
  obtain ⟨x, y, z, w, rfl⟩ := four h2
  have hu := pngUint_ok pre len ([x, y, z, w] ++ dat ++ crc ++ post)
  have ht := trunkNew_ok (pre ++ len) dat crc post x y z w l3
  rw [e3, if_neg h4] at ht
  rw [l1, e1] at hu
  rw [List.append_assoc, List.length_append, l1] at ht
  have hd : pre ++ (len ++ [x, y, z, w] ++ dat ++ crc ++ post) =
      pre ++ (len ++ ([x, y, z, w] ++ dat ++ crc ++ post)) := by simp
  rw [hd, pngLoop, hu]
  simp only [caseR]
  rw [ht]

/-- Every input is a sequence of chunks followed by a short rest, a truncated chunk
or a chunk with a wrong checksum. -/
theorem chunks_total (l : List UInt8) : ∃ ts body tail, l = body ++ tail ∧ IsChunks ts body ∧
    (tail.length < 4 ∨ (∃ k m, Truncated tail k m) ∨ BadChunk tail) := by
  generalize hn : l.length = n
  induction n using Nat.strongRecOn generalizing l with
  | ind n ih =>
    by_cases h4 : l.length < 4
    · exact ⟨[], [], l, rfl, .nil, .inl h4⟩
    · obtain ⟨len, rest, rfl, hlen⟩ : ∃ len rest, l = len ++ rest ∧ len.length = 4 :=
        ⟨l.take 4, l.drop 4, by simp, by simp; omega⟩
      have hv := value_isBe len
      rw [hlen] at hv
      generalize leValue len.reverse = k at hv
      by_cases hk : rest.length < k + 8
      · exact ⟨[], [], _, rfl, .nil, .inr (.inl ⟨k, _, len, rest, rfl, hv, rfl, hk⟩)⟩
      · obtain ⟨ty, r1, rfl, hty⟩ : ∃ ty r, rest = ty ++ r ∧ ty.length = 4 :=
          ⟨rest.take 4, rest.drop 4, by simp, by simp; omega⟩
        simp only [List.length_append] at hk
        obtain ⟨dat, r2, rfl, hdat⟩ : ∃ dat r, r1 = dat ++ r ∧ dat.length = k :=
          ⟨r1.take k, r1.drop k, by simp, by simp; omega⟩
        simp only [List.length_append] at hk
        obtain ⟨crc, post, rfl, hcrc⟩ : ∃ crc r, r2 = crc ++ r ∧ crc.length = 4 :=
          ⟨r2.take 4, r2.drop 4, by simp, by simp; omega⟩
        subst hdat
        have hc := value_isBe crc
        rw [hcrc] at hc
        by_cases he : leValue crc.reverse = (crc32 (ty ++ dat)).toNat
        · obtain ⟨ts, body, tail, rfl, hb, ht⟩ := ih post.length (by simp at hn; omega) post rfl
          obtain ⟨x, y, z, w, rfl⟩ := four hty
          refine ⟨⟨x.toNat, y.toNat, z.toNat, w.toNat, leValue crc.reverse, dat⟩ :: ts,
            (len ++ [x, y, z, w] ++ dat ++ crc) ++ body, tail, by simp,
            .cons ⟨len, [x, y, z, w], crc, rfl, hv, rfl, hc, he⟩ hb, ht⟩
        · exact ⟨[], [], _, rfl, .nil, .inr (.inr
            ⟨len, ty, dat, crc, post, _, by simp, hv, hty, hc, he⟩)⟩

theorem pngLoop_mono (d : List UInt8) (n : Nat) (acc : List Trunk) (o : Nat) (r : Res (List Trunk)) (k : Nat)
    (h : pngLoop d n acc o = some r) : pngLoop d (n + k) acc o = some r := by
  induction n generalizing acc o with
  | zero => cases h
  | succ n ih =>
    rw [show n + 1 + k = n + k + 1 by omega]
    unfold pngLoop at h ⊢
    revert h
    rcases pngUint 4 d o with _ | (⟨l, o1⟩ | ⟨e, o1⟩ | _)
    · exact id
    · simp only [caseR]
      rcases trunkNew d l o1 with _ | (⟨t, o2⟩ | ⟨e, o2⟩ | _)
      · exact id
      · exact ih _ _
      · exact id
      · exact id
    · exact id
    · exact id

theorem head_con (d : List UInt8) :
    con (fun _ => none) pngH 5 none d (.lit [137, 80, 78, 71, 13, 10, 26, 10]) () 0 =
      if pngHead <+: d then some (.ok (.base (.bytes pngHead)) () 8) else some (.err .literal () 0) := by
  have h0 : origAt d 0 = .ok d := origAt_ok.mpr (by cases d <;> rfl)
  have hb : blen d = d.length := blen_bytes d
  have hl : blen pngHead = 8 := rfl
  rw [show ([137, 80, 78, 71, 13, 10, 26, 10] : List UInt8) = pngHead from rfl]
  simp only [con, conStep, tryMat, matWith, parse, step, litParse, remK, invokeK, caseM, caseO, caseR, newSpanInc,
    hb, hl, h0, Nat.zero_le, if_true, Nat.sub_zero, List.isPrefixOf_iff_prefix]
  by_cases h : pngHead <+: d
  · obtain ⟨t, rfl⟩ := h
    rw [if_pos (List.prefix_append _ _), if_pos (by simp [pngHead]), if_pos (List.prefix_append pngHead t)]
    have := origSub_at [] pngHead t
    simp only [List.nil_append, List.length_nil] at this
    simp only [pngH]
    rw [show origSub (pngHead ++ t) 0 8 = .ok pngHead from this]
  · simp only [if_neg h, ite_self]

/-- The results of reading the file, as a relation. -/
def Outcome (d : List UInt8) (r : Res (Option (List Trunk))) : Prop :=
  (¬ pngHead <+: d ∧ r = .ok none 0) ∨
  ∃ ts body tail, d = pngHead ++ body ++ tail ∧ IsChunks ts body ∧
    ((tail.length < 4 ∧ r = .ok (some ts) (8 + body.length)) ∨
     (∃ k m, Truncated tail k m ∧ r = .err .consume (8 + body.length + 4 + cutOffAt m k)) ∨
     (BadChunk tail ∧ r = .panic))

theorem outcome_reads {d : List UInt8} {r : Res (Option (List Trunk))} (h : Outcome d r) : PngReads d r := by
  rcases h with ⟨h, rfl⟩ | ⟨ts, body, tail, rfl, hb, h⟩
  · exact ⟨0, by simp [pngMain, head_con, h]⟩
  · refine ⟨ts.length + 1, ?_⟩
    rw [List.append_assoc]
    simp only [pngMain, head_con, if_pos (List.prefix_append pngHead _)]
    have h8 : pngHead.length = 8 := rfl
    have hc := pngLoop_chunks hb pngHead tail 1 []
    rw [h8, List.nil_append] at hc
    rw [hc]
    have hlen : (pngHead ++ body).length = 8 + body.length := by simp [h8]
    rw [← List.append_assoc, ← hlen]
    rcases h with ⟨h, rfl⟩ | ⟨k, m, h, rfl⟩ | ⟨h, rfl⟩
    · rw [pngLoop_short _ _ h, hlen]; rfl
    · rw [pngLoop_truncated _ _ k m h, hlen]; rfl
    · rw [pngLoop_bad _ _ h]; rfl

theorem outcome_total (d : List UInt8) : ∃ r, Outcome d r := by
  by_cases h : pngHead <+: d
  · obtain ⟨l, rfl⟩ := h
    obtain ⟨ts, body, tail, rfl, hb, h⟩ := chunks_total l
    rw [← List.append_assoc]
    rcases h with h | ⟨k, m, h⟩ | h
    · exact ⟨_, .inr ⟨ts, body, tail, rfl, hb, .inl ⟨h, rfl⟩⟩⟩
    · exact ⟨_, .inr ⟨ts, body, tail, rfl, hb, .inr (.inl ⟨k, m, h, rfl⟩)⟩⟩
    · exact ⟨_, .inr ⟨ts, body, tail, rfl, hb, .inr (.inr ⟨h, rfl⟩)⟩⟩
  · exact ⟨_, .inl ⟨h, rfl⟩⟩

theorem pngMain_mono {d : List UInt8} {n : Nat} {r : Res (Option (List Trunk))} (k : Nat)
    (h : pngMain d n = some r) : pngMain d (n + k) = some r := by
  unfold pngMain at h ⊢
  rw [head_con] at h ⊢
  by_cases hp : pngHead <+: d
  · rw [if_pos hp] at h ⊢
    simp only at h ⊢
    rcases hx : pngLoop d n [] 8 with _ | r'
    · rw [hx] at h; simp [caseR] at h
    · rw [pngLoop_mono _ _ _ _ _ k hx]; rw [hx] at h; exact h
  · rw [if_neg hp] at h ⊢; exact h

theorem PngReads.unique {d : List UInt8} {r r' : Res (Option (List Trunk))} (h : PngReads d r)
    (h' : PngReads d r') : r = r' := by
  obtain ⟨n, h⟩ := h
  obtain ⟨m, h'⟩ := h'
  have h := pngMain_mono m h
  have h' := pngMain_mono n h'
  rw [Nat.add_comm] at h'
  exact Option.some.inj (h.symm.trans h')

theorem reads_iff (d : List UInt8) (r : Res (Option (List Trunk))) : PngReads d r ↔ Outcome d r := by
  refine ⟨fun h => ?_, outcome_reads⟩
  obtain ⟨r', h'⟩ := outcome_total d
  exact h.unique (outcome_reads h') ▸ h'

/-- **C56 (accepted files).** Reading a file succeeds with the chunks `ts` exactly
if the file is the PNG head, these chunks in this order, each with a correct
checksum, and fewer than four further bytes; the context then stands behind the
last chunk. -/
theorem C56_png_accepts_exactly (d : List UInt8) (ts : List Trunk) (o : Nat) :
    PngReads d (.ok (some ts) o) ↔
      ∃ body tail, d = pngHead ++ body ++ tail ∧ IsChunks ts body ∧ tail.length < 4 ∧
        o = pngHead.length + body.length := by
  rw [reads_iff, Outcome]
  constructor
  · rintro (⟨-, h⟩ | ⟨ts', body, tail, hd, hb, ⟨h, e⟩ | ⟨k, m, -, e⟩ | ⟨-, e⟩⟩) <;> try cases h
    · cases e; exact ⟨body, tail, hd, hb, h, rfl⟩
    · cases e
    · cases e
  · rintro ⟨body, tail, hd, hb, h, rfl⟩
    exact .inr ⟨ts, body, tail, hd, hb, .inl ⟨h, rfl⟩⟩

/-- **C56 (other files).** "Not a png file" exactly if the head is missing; an
error exactly if a chunk is cut off (fewer bytes follow its length field than it
announces); a panic exactly if a chunk before any cut-off one has a wrong
checksum. -/
theorem C56_png_rejects_exactly (d : List UInt8) :
    ((∃ o, PngReads d (.ok none o)) ↔ ¬ pngHead <+: d) ∧
    ((∃ e o, PngReads d (.err e o)) ↔
      ∃ ts body tail k m, d = pngHead ++ body ++ tail ∧ IsChunks ts body ∧ Truncated tail k m) ∧
    (PngReads d .panic ↔
      ∃ ts body tail, d = pngHead ++ body ++ tail ∧ IsChunks ts body ∧ BadChunk tail) := by
  simp only [reads_iff, Outcome]
  refine ⟨⟨?_, fun h => ⟨0, .inl ⟨h, rfl⟩⟩⟩, ⟨?_, ?_⟩, ⟨?_, ?_⟩⟩
  · rintro ⟨o, ⟨h, -⟩ | ⟨ts', body, tail, hd, hb, ⟨h, e⟩ | ⟨k, m, -, e⟩ | ⟨-, e⟩⟩⟩
    · exact h
    · cases e
    · cases e
    · cases e
  · rintro ⟨e', o, ⟨h, e⟩ | ⟨ts', body, tail, hd, hb, ⟨h, e⟩ | ⟨k, m, h, e⟩ | ⟨-, e⟩⟩⟩
    · cases e
    · cases e
    · exact ⟨ts', body, tail, k, m, hd, hb, h⟩
    · cases e
  · rintro ⟨ts, body, tail, k, m, hd, hb, h⟩
    exact ⟨_, _, .inr ⟨ts, body, tail, hd, hb, .inr (.inl ⟨k, m, h, rfl⟩)⟩⟩
  · rintro (⟨h, e⟩ | ⟨ts', body, tail, hd, hb, ⟨h, e⟩ | ⟨k, m, h, e⟩ | ⟨h, e⟩⟩)
    · cases e
    · cases e
    · cases e
    · exact ⟨ts', body, tail, hd, hb, h⟩
  · rintro ⟨ts, body, tail, hd, hb, h⟩
    exact .inr ⟨ts, body, tail, hd, hb, .inr (.inr ⟨h, trivial⟩)⟩

/-- **C56 (termination).** Every file is read to an end, with one result. -/
theorem C56_png_returns (d : List UInt8) : ∃ r, PngReads d r ∧ ∀ r', PngReads d r' → r' = r := by
  obtain ⟨r, h⟩ := outcome_total d
  exact ⟨r, outcome_reads h, fun r' h' => h'.unique (outcome_reads h)⟩

/-- **C56 (round trip).** Chunks written one after the other are read back; in
particular the sequence can be read in one way only. -/
theorem C56_png_unambiguous (ts ts' : List Trunk) (body : List UInt8) (h : IsChunks ts body)
    (h' : IsChunks ts' body) : ts = ts' := by
  have h1 := (C56_png_accepts_exactly (pngHead ++ body) ts _).mpr ⟨body, [], by simp, h, by simp, rfl⟩
  have h2 := (C56_png_accepts_exactly (pngHead ++ body) ts' _).mpr ⟨body, [], by simp, h', by simp, rfl⟩
  have := h1.unique h2
  simpa using this

/-- Non-vacuity: the `IEND` chunk every PNG file ends with. -/
example : IsChunk ⟨73, 69, 78, 68, 0xAE426082, []⟩ [0, 0, 0, 0, 73, 69, 78, 68, 0xAE, 0x42, 0x60, 0x82] :=
  ⟨[0, 0, 0, 0], [73, 69, 78, 68], [0xAE, 0x42, 0x60, 0x82], rfl,
    ⟨rfl, by decide, by decide⟩, rfl, ⟨rfl, by decide, by decide⟩, by decide +kernel⟩

/-- Non-vacuity: a chunk that announces two bytes and is cut off after its type. -/
example : Truncated [0, 0, 0, 2, 73, 69, 78, 68] 2 4 :=
  ⟨[0, 0, 0, 2], [73, 69, 78, 68], rfl, ⟨rfl, by decide, by decide⟩, rfl, by decide⟩

/-- Non-vacuity: the last byte of the checksum is wrong. -/
example : BadChunk [0, 0, 0, 0, 73, 69, 78, 68, 0xAE, 0x42, 0x60, 0x83] :=
  ⟨[0, 0, 0, 0], [73, 69, 78, 68], [], [0xAE, 0x42, 0x60, 0x83], [], 0xAE426083, rfl,
    ⟨rfl, by decide, by decide⟩, rfl, ⟨rfl, by decide, by decide⟩, by decide +kernel⟩

end Neure
