import Verif.PngPlain
import Verif.PropsPng
/-!
# C97: the two PNG examples
-/

namespace Neure

namespace PngPlain

set_option linter.unusedSectionVars false
set_option linter.unusedSimpArgs false

/-! ## Specification -/

/-- A chunk, whatever its checksum. -/
structure Chunk where
  /-- The four letters of the type. -/
  ty : List UInt8
  dat : List UInt8
  /-- The checksum in the file. -/
  value : Nat

/-- `l` are the bytes of the chunk. -/
def IsRaw (c : Chunk) (l : List UInt8) : Prop :=
  ∃ len crc, l = len ++ c.ty ++ c.dat ++ crc ∧ IsBe 4 c.dat.length len ∧ c.ty.length = 4 ∧ IsBe 4 c.value crc

/-- `l` are the bytes of the chunks, one after the other. -/
inductive AreRaw : List Chunk → List UInt8 → Prop where
  | nil : AreRaw [] []
  | cons {c cs a b} : IsRaw c a → AreRaw cs b → AreRaw (c :: cs) (a ++ b)

/-- What the type says, and the length. -/
def typeLines (a p r s : UInt8) (n : Nat) : List Line :=
  [.critical (some a.toNat) (isUppercase a.toNat), .isPublic (some p.toNat) (isUppercase p.toNat),
    .reserved (some r.toNat) (isUppercase r.toNat), .unsafeCopy (some s.toNat) (isUppercase s.toNat), .dataLength n]

/-- The report about a chunk. -/
def linesOf (c : Chunk) : List Line :=
  (match c.ty with
    | [a, p, r, s] => typeLines a p r s c.dat.length
    | _ => []) ++ [.skipped c.dat.length, .crc (decide (c.value = (crc32 (c.ty ++ c.dat)).toNat))]

/-- The report about a chunk of which only `rest` is there behind its length `n`. -/
def cutLines (n : Nat) (rest : List UInt8) : List Line :=
  match rest with
  | a :: p :: r :: s :: l => typeLines a p r s n ++ if n ≤ l.length then [.skipped n] else []
  | _ => []

/-! ## One chunk -/

theorem skipData_eq (n : Nat) (pre rest : List UInt8) :
    skipData n (pre ++ rest) pre.length =
      if n ≤ rest.length then some (.ok n (pre.length + n)) else some (.err .consume pre.length) := by
  unfold skipData
  have hb : blen (pre ++ rest) = pre.length + rest.length := by rw [blen_bytes]; simp
  simp only [con, conStep, tryMat, matWith, parse, step, consumeParse, remK, hb, invokeK, caseM, caseC, caseT, caseR,
    newSpanInc]
  rw [if_pos (by omega), show pre.length + rest.length - pre.length = rest.length by omega]
  by_cases h : n ≤ rest.length
  · have h2 : origSub (pre ++ rest) pre.length n = .ok (rest.take n) := by
      have := origSub_at pre (rest.take n) (rest.drop n)
      rwa [List.take_append_drop, List.length_take, Nat.min_eq_left h] at this
    simp only [ge_iff_le, h, if_true, pngH, h2, List.length_take, Nat.min_eq_left h]
  · simp [h]

theorem chunk_type (pre rest : List UInt8) (a p r s : UInt8) (n : Nat) :
    chunk (pre ++ (a :: p :: r :: s :: rest)) n pre.length =
      print (typeLines a p r s n) (try_ (skipData n ((pre ++ [a, p, r, s]) ++ rest) (pre ++ [a, p, r, s]).length) fun n' o5 =>
        print [.skipped n'] <| match origSub ((pre ++ [a, p, r, s]) ++ rest) pre.length (o5 - pre.length) with
          | .panic => ([], some .panic)
          | .err e => ([], some (.err e o5))
          | .ok crcData => try_ (pngUint 4 ((pre ++ [a, p, r, s]) ++ rest) o5) fun v o6 => match calcCrc crcData with
            | none => ([], some .panic)
            | some c => ([.crc (v == c.toNat)], some (.ok () o6))) := by
  unfold chunk
  rw [pngByte_ok pre _ _ _ a rfl rfl]
  simp only [try_]
  rw [pngByte_ok (pre ++ [a]) (r :: s :: rest) _ _ p (by simp) (by simp)]
  simp only [try_]
  rw [pngByte_ok (pre ++ [a, p]) (s :: rest) _ _ r (by simp) (by simp)]
  simp only [try_]
  rw [pngByte_ok (pre ++ [a, p, r]) rest _ _ s (by simp) (by simp)]
  have hl : pre ++ a :: p :: r :: s :: rest = (pre ++ [a, p, r, s]) ++ rest := by simp
  have ho : pre.length + 1 + 1 + 1 + 1 = (pre ++ [a, p, r, s]).length := by simp
  rw [hl, ho]
  rfl

theorem chunk_ok (pre dat crc post : List UInt8) (a p r s : UInt8) (hcrc : crc.length = 4) :
    chunk (pre ++ ([a, p, r, s] ++ dat ++ crc ++ post)) dat.length pre.length =
      (linesOf ⟨[a, p, r, s], dat, leValue crc.reverse⟩, some (.ok () (pre.length + (8 + dat.length)))) := by
  have e : [a, p, r, s] ++ dat ++ crc ++ post = a :: p :: r :: s :: (dat ++ (crc ++ post)) := by simp
  rw [e, chunk_type, skipData_eq, if_pos (by simp)]
  simp only [try_]
  have h2 : origSub (pre ++ [a, p, r, s] ++ (dat ++ (crc ++ post))) pre.length
      ((pre ++ [a, p, r, s]).length + dat.length - pre.length) = .ok ([a, p, r, s] ++ dat) := by
    have := origSub_at pre ([a, p, r, s] ++ dat) (crc ++ post)
    rw [show ([a, p, r, s] ++ dat).length = (pre ++ [a, p, r, s]).length + dat.length - pre.length by
      simp; omega] at this
    simpa using this
  rw [h2]
  have h3 := pngUint_ok (pre ++ [a, p, r, s] ++ dat) crc post
  rw [List.length_append, List.append_assoc, hcrc] at h3
  simp only
  rw [h3, C57_table_crc_is_crc32]
  simp only [print, linesOf, UInt32.toNat_ofBitVec, Prod.mk.injEq, Option.some.injEq, Res.ok.injEq, true_and]
  refine ⟨?_, by simp; omega⟩
  simp only [List.append_cancel_left_eq, List.cons_append, List.nil_append, List.cons.injEq, Line.crc.injEq, and_true, true_and]
  rw [Bool.eq_iff_iff]; simp

theorem chunk_cut (n : Nat) (pre rest : List UInt8) (h : rest.length < n + 8) :
    chunk (pre ++ rest) n pre.length = (cutLines n rest, some (.err .consume (pre.length + cutOffAt rest.length n))) := by
  have e1 : ∀ (pre rest : List UInt8) (o : Nat), rest = [] → o = pre.length →
      pngUint 1 (pre ++ rest) o = some (.err .consume o) := by
    intro pre rest o h ho
    subst ho
    exact pngUint_err 1 _ _ (by simp [h])
  match rest with
  | [] => unfold chunk; rw [e1 _ _ _ rfl rfl]; simp [try_, cutLines, cutOffAt]
  | [a] =>
    unfold chunk
    rw [pngByte_ok pre [] _ _ a rfl rfl]
    simp only [try_]
    rw [show pre ++ [a] = (pre ++ [a]) ++ [] by simp, e1 _ _ _ rfl (by simp)]; simp [cutLines, cutOffAt]
  | [a, b] =>
    unfold chunk
    rw [pngByte_ok pre _ _ _ a rfl rfl]
    simp only [try_]
    rw [pngByte_ok (pre ++ [a]) [] _ _ b (by simp) (by simp)]
    simp only [try_]
    rw [show pre ++ [a, b] = (pre ++ [a, b]) ++ [] by simp, e1 _ _ _ rfl (by simp)]; simp [cutLines, cutOffAt]
  | [a, b, c] =>
    unfold chunk
    rw [pngByte_ok pre _ _ _ a rfl rfl]
    simp only [try_]
    rw [pngByte_ok (pre ++ [a]) [c] _ _ b (by simp) (by simp)]
    simp only [try_]
    rw [pngByte_ok (pre ++ [a, b]) [] _ _ c (by simp) (by simp)]
    simp only [try_]
    rw [show pre ++ [a, b, c] = (pre ++ [a, b, c]) ++ [] by simp, e1 _ _ _ rfl (by simp)]; simp [cutLines, cutOffAt]
  | a :: p :: r :: s :: l =>
    rw [chunk_type, skipData_eq]
    simp only [List.length_cons] at h
    by_cases hn : n ≤ l.length
    · obtain ⟨dat, post, rfl, hlen⟩ : ∃ dat post, l = dat ++ post ∧ dat.length = n :=
        ⟨l.take n, l.drop n, by simp, by simp; omega⟩
      subst hlen
      rw [if_pos hn]
      simp only [try_]
      have h2 : origSub (pre ++ [a, p, r, s] ++ (dat ++ post)) pre.length
          ((pre ++ [a, p, r, s]).length + dat.length - pre.length) = .ok ([a, p, r, s] ++ dat) := by
        have := origSub_at pre ([a, p, r, s] ++ dat) post
        rw [show ([a, p, r, s] ++ dat).length = (pre ++ [a, p, r, s]).length + dat.length - pre.length by
          simp; omega] at this
        simpa using this
      rw [h2]
      simp only [List.length_append] at h
      have h3 := pngUint_err 4 (pre ++ [a, p, r, s] ++ dat) post (by omega)
      rw [List.length_append, List.append_assoc] at h3
      simp only
      rw [h3]
      simp only [print, cutLines, if_pos hn]
      simp only [cutOffAt, List.length_append, List.length_cons, List.length_nil, List.append_nil]
      rw [if_neg (by omega), if_neg (by omega)]
      congr 3; omega
    · rw [if_neg hn]
      simp only [try_, print, cutLines, if_neg hn, cutOffAt, List.length_append, List.length_cons, List.length_nil]
      rw [if_neg (by omega), if_pos (by omega)]

/-! ## The loop -/

theorem loop_chunk {c : Chunk} {a : List UInt8} (h : IsRaw c a) (pre post : List UInt8) (n : Nat) :
    loop (pre ++ (a ++ post)) (n + 1) pre.length =
      print (linesOf c) (loop (pre ++ (a ++ post)) n (pre.length + a.length)) := by
  obtain ⟨len, crc, rfl, h1, h2, h3⟩ := h
  obtain ⟨l1, e1⟩ := isBe_value h1
  obtain ⟨l3, e3⟩ := isBe_value h3
  obtain ⟨ty, dat, value⟩ := c
  simp only at h1 h2 h3 e1 e3 ⊢
  obtain ⟨x, y, z, w, rfl⟩ := four h2
  have hu := pngUint_ok pre len ([x, y, z, w] ++ dat ++ crc ++ post)
  have ht := chunk_ok (pre ++ len) dat crc post x y z w l3
  rw [l1, e1] at hu
  rw [e3, List.append_assoc, List.length_append, l1] at ht
  have hd : pre ++ (len ++ [x, y, z, w] ++ dat ++ crc ++ post) =
      pre ++ (len ++ ([x, y, z, w] ++ dat ++ crc ++ post)) := by simp
  rw [hd, loop, hu]
  simp only
  rw [ht]
  simp only
  congr 2
  simp; omega

theorem loop_chunks {cs : List Chunk} {body : List UInt8} (h : AreRaw cs body) (pre post : List UInt8) (n : Nat) :
    loop (pre ++ (body ++ post)) (cs.length + n) pre.length =
      print (cs.flatMap linesOf) (loop (pre ++ (body ++ post)) n (pre.length + body.length)) := by
  induction h generalizing pre n with
  | nil => simp [print]
  | @cons c cs a b ha hb ih =>
    have := loop_chunk ha pre (b ++ post) (cs.length + n)
    rw [List.length_cons, show cs.length + 1 + n = cs.length + n + 1 by omega, List.append_assoc, this]
    have := ih (pre ++ a) n
    simp only [List.append_assoc, List.length_append] at this
    rw [this]
    simp [print, Nat.add_assoc]

theorem loop_short (pre tail : List UInt8) (h : tail.length < 4) (n : Nat) :
    loop (pre ++ tail) (n + 1) pre.length = ([], some (.ok () pre.length)) := by
  rw [loop, pngUint_err 4 _ _ h]

theorem loop_cut (pre len rest : List UInt8) (k : Nat) (h1 : IsBe 4 k len) (h : rest.length < k + 8) (n : Nat) :
    loop (pre ++ (len ++ rest)) (n + 1) pre.length =
      (cutLines k rest, some (.err .consume (pre.length + 4 + cutOffAt rest.length k))) := by
  obtain ⟨l1, e1⟩ := isBe_value h1
  have hu := pngUint_ok pre len rest
  rw [l1, e1] at hu
  rw [loop, hu]
  simp only
  have := chunk_cut k (pre ++ len) rest h
  rw [List.append_assoc, List.length_append, l1] at this
  rw [this]

/-- Every input is a sequence of chunks followed by a short rest or a truncated chunk. -/
theorem raw_total (l : List UInt8) : ∃ cs body tail, l = body ++ tail ∧ AreRaw cs body ∧
    (tail.length < 4 ∨ ∃ len rest k, tail = len ++ rest ∧ IsBe 4 k len ∧ rest.length < k + 8) := by
  generalize hn : l.length = n
  induction n using Nat.strongRecOn generalizing l with
  | ind n ih =>
    by_cases h4 : l.length < 4
    · exact ⟨[], [], l, rfl, .nil, .inl h4⟩
    · obtain ⟨len, rest, rfl, hlen⟩ : ∃ len rest, l = len ++ rest ∧ len.length = 4 :=
        ⟨l.take 4, l.drop 4, by simp, by simp; omega⟩
      have hv := value_isBe len
      rw [hlen] at hv
      generalize leValue len.reverse = k at hv
      by_cases hk : rest.length < k + 8
      · exact ⟨[], [], _, rfl, .nil, .inr ⟨len, rest, k, rfl, hv, hk⟩⟩
      · obtain ⟨ty, r1, rfl, hty⟩ : ∃ ty r, rest = ty ++ r ∧ ty.length = 4 :=
          ⟨rest.take 4, rest.drop 4, by simp, by simp; omega⟩
        simp only [List.length_append] at hk
        obtain ⟨dat, r2, rfl, hdat⟩ : ∃ dat r, r1 = dat ++ r ∧ dat.length = k :=
          ⟨r1.take k, r1.drop k, by simp, by simp; omega⟩
        simp only [List.length_append] at hk
        obtain ⟨crc, post, rfl, hcrc⟩ : ∃ crc r, r2 = crc ++ r ∧ crc.length = 4 :=
          ⟨r2.take 4, r2.drop 4, by simp, by simp; omega⟩
        subst hdat
        have hc := value_isBe crc
        rw [hcrc] at hc
        obtain ⟨cs, body, tail, rfl, hb, ht⟩ := ih post.length (by simp at hn; omega) post rfl
        exact ⟨⟨ty, dat, leValue crc.reverse⟩ :: cs, (len ++ ty ++ dat ++ crc) ++ body, tail, by simp,
          .cons ⟨len, crc, rfl, hv, hty, hc⟩ hb, ht⟩

theorem loop_mono (d : List UInt8) (n o : Nat) (l : List Line) (r : Res Unit) (k : Nat)
    (h : loop d n o = (l, some r)) : loop d (n + k) o = (l, some r) := by
  induction n generalizing o l r with
  | zero => simp [loop] at h
  | succ n ih =>
    rw [show n + 1 + k = n + k + 1 by omega]
    unfold loop at h ⊢
    revert h
    rcases pngUint 4 d o with _ | (⟨len, o1⟩ | ⟨e, o1⟩ | _)
    · exact id
    · simp only
      rcases chunk d len o1 with ⟨l1, _ | (⟨_, o2⟩ | ⟨e, o2⟩ | _)⟩
      · exact id
      · simp only
        rcases hx : loop d n o2 with ⟨l2, _ | r2⟩
        · simp [print]
        · rw [ih _ _ _ hx]
          exact id
      · exact id
      · exact id
    · exact id
    · exact id

/-! ## The whole file -/

/-- What is printed about a file, and how reading it ends, as a relation. -/
def Report (d : List UInt8) (l : List Line) (r : Res Unit) : Prop :=
  ∃ cs body tail, d = pngHead ++ body ++ tail ∧ AreRaw cs body ∧
    ((tail.length < 4 ∧ l = cs.flatMap linesOf ∧ r = .ok () (8 + body.length)) ∨
     (∃ len rest k, tail = len ++ rest ∧ IsBe 4 k len ∧ rest.length < k + 8 ∧
        l = cs.flatMap linesOf ++ cutLines k rest ∧ r = .err .consume (8 + body.length + 4 + cutOffAt rest.length k)))

theorem report_prints {d : List UInt8} {l : List Line} {r : Res Unit} (h : Report d l r) : Prints d l r := by
  obtain ⟨cs, body, tail, rfl, hb, h⟩ := h
  refine ⟨cs.length + 1, ?_⟩
  rw [List.append_assoc]
  simp only [main, head_con, if_pos (List.prefix_append pngHead _)]
  have h8 : pngHead.length = 8 := rfl
  have hc := loop_chunks hb pngHead tail 1
  rw [h8] at hc
  rw [hc]
  have hlen : (pngHead ++ body).length = 8 + body.length := by simp [h8]
  rw [← List.append_assoc, ← hlen]
  rcases h with ⟨h, rfl, rfl⟩ | ⟨len, rest, k, rfl, h1, h2, rfl, rfl⟩
  · rw [loop_short _ _ h, hlen]; simp [print]
  · rw [loop_cut _ _ _ k h1 h2, hlen]; simp [print]

theorem prints_unique {d : List UInt8} {l l' : List Line} {r r' : Res Unit} (h : Prints d l r) (h' : Prints d l' r') :
    l = l' ∧ r = r' := by
  obtain ⟨n, h⟩ := h
  obtain ⟨m, h'⟩ := h'
  simp only [main, head_con] at h h'
  by_cases hp : pngHead <+: d
  · rw [if_pos hp] at h h'
    simp only [Option.some.injEq] at h h'
    have h1 := loop_mono d n 8 l r m h
    have h2 := loop_mono d m 8 l' r' n h'
    rw [Nat.add_comm, h1] at h2
    simp only [Prod.mk.injEq, Option.some.injEq] at h2
    exact h2
  · rw [if_neg hp] at h; cases h

/-- **C97 (the report).** For every file that begins like a PNG file, `examples/png.rs` prints the report of
its chunks one after the other, whatever their checksums: the letters of the type and what their case
means, the length of the data, and whether the checksum in the file is the CRC-32 of type and data.
Fewer than four bytes behind the last chunk are ignored; a chunk that is cut off is reported as far as it
is there and ends the program with an error. -/
theorem _root_.Neure.C97_png_report (d : List UInt8) (l : List Line) (r : Res Unit) : Prints d l r ↔ Report d l r := by
  refine ⟨fun h => ?_, report_prints⟩
  have hp : pngHead <+: d := by
    obtain ⟨n, h⟩ := h
    simp only [main, head_con] at h
    by_cases hp : pngHead <+: d
    · exact hp
    · rw [if_neg hp] at h; cases h
  obtain ⟨x, rfl⟩ := hp
  obtain ⟨cs, body, tail, rfl, hb, ht⟩ := raw_total x
  obtain ⟨l', r', h'⟩ : ∃ l' r', Report (pngHead ++ (body ++ tail)) l' r' := by
    rw [← List.append_assoc]
    rcases ht with h | ⟨len, rest, k, h0, h1, h2⟩
    · exact ⟨_, _, cs, body, tail, rfl, hb, .inl ⟨h, rfl, rfl⟩⟩
    · exact ⟨_, _, cs, body, tail, rfl, hb, .inr ⟨len, rest, k, h0, h1, h2, rfl, rfl⟩⟩
  obtain ⟨rfl, rfl⟩ := prints_unique h (report_prints h')
  exact h'

/-- **C97 (every file).** A file that begins like a PNG file gets exactly one report, and the program
never panics (`examples/png2.rs` panics on a wrong checksum, C56); any other file is "Not a png file". -/
theorem _root_.Neure.C97_every_file (d : List UInt8) :
    (pngHead <+: d → ∃ l r, Prints d l r ∧ r ≠ .panic ∧ ∀ l' r', Prints d l' r' → l' = l ∧ r' = r) ∧
    (¬ pngHead <+: d ↔ ∀ n, main d n = none) := by
  constructor
  · rintro ⟨x, rfl⟩
    obtain ⟨cs, body, tail, rfl, hb, ht⟩ := raw_total x
    rw [← List.append_assoc]
    rcases ht with h | ⟨len, rest, k, h0, h1, h2⟩
    · have hr := report_prints ⟨cs, body, tail, rfl, hb, .inl ⟨h, rfl, rfl⟩⟩
      exact ⟨_, _, hr, by simp, fun l' r' h' => prints_unique h' hr⟩
    · have hr := report_prints ⟨cs, body, tail, rfl, hb, .inr ⟨len, rest, k, h0, h1, h2, rfl, rfl⟩⟩
      exact ⟨_, _, hr, by simp, fun l' r' h' => prints_unique h' hr⟩
  · simp only [main, head_con]
    by_cases hp : pngHead <+: d <;> simp [hp]

/-! ## The two examples -/

/-- The byte is an ASCII letter. -/
def Letter (n : Nat) : Prop := (65 ≤ n ∧ n ≤ 90) ∨ (97 ≤ n ∧ n ≤ 122)

theorem letter_case {n : Nat} (h : Letter n) : isUppercase n = !isLowercase n := by
  unfold isUppercase isLowercase
  rcases h with ⟨h1, h2⟩ | ⟨h1, h2⟩
  · have a : ¬ 97 ≤ n := by omega
    simp [h1, h2, a]
  · have a : ¬ n ≤ 90 := by omega
    have b : ¬ 0xC0 ≤ n := by omega
    simp [h1, h2, a, b]

/-- `isUppercase` on ASCII is what it says. -/
theorem upper_ascii {n : Nat} (h : n < 128) : isUppercase n = true ↔ 65 ≤ n ∧ n ≤ 90 := by
  simp [isUppercase]; omega

/-- The chunk `png2` returns, as a chunk of the file. -/
theorem chunk_raw {t : Trunk} {l : List UInt8} (h : IsChunk t l) :
    ∃ a p r s : UInt8, [a.toNat, p.toNat, r.toNat, s.toNat] = [t.ancillary, t.priv, t.reserved, t.safeCopy] ∧
      IsRaw ⟨[a, p, r, s], t.data, t.crcValue⟩ l ∧ t.crcValue = (crc32 ([a, p, r, s] ++ t.data)).toNat := by
  obtain ⟨len, ty, crc, rfl, h1, h2, h3, h4⟩ := h
  obtain ⟨x, y, z, w, rfl⟩ : ∃ x y z w, ty = [x, y, z, w] := four (by
    have := congrArg List.length h2; simpa using this)
  exact ⟨x, y, z, w, h2, ⟨len, crc, rfl, h1, rfl, h3⟩, h4⟩

/-- What `png.rs` prints about a chunk that `png2.rs` accepts. -/
def plainLines (t : Trunk) : List Line :=
  [.critical (some t.ancillary) (isUppercase t.ancillary), .isPublic (some t.priv) (isUppercase t.priv),
    .reserved (some t.reserved) (isUppercase t.reserved), .unsafeCopy (some t.safeCopy) (isUppercase t.safeCopy),
    .dataLength t.data.length, .skipped t.data.length, .crc true]

theorem chunks_raw {ts : List Trunk} {body : List UInt8} (h : IsChunks ts body) :
    ∃ cs, AreRaw cs body ∧ cs.flatMap linesOf = ts.flatMap plainLines := by
  induction h with
  | nil => exact ⟨[], .nil, rfl⟩
  | @cons t ts a b ha _ ih =>
    obtain ⟨cs, h1, h2⟩ := ih
    obtain ⟨x, y, z, w, e, hr, hv⟩ := chunk_raw ha
    refine ⟨_ :: cs, .cons hr h1, ?_⟩
    simp only [List.cons.injEq, and_true] at e
    simp only [List.flatMap_cons, h2, linesOf, plainLines, typeLines, ← hv, e]
    simp

/-- **C97 (what `png2` accepts).** If `png2.rs` reads a file, `png.rs` reports the same chunks, in the same order and
all with a correct checksum, and stops at the same place. -/
theorem _root_.Neure.C97_same_chunks {d : List UInt8} {ts : List Trunk} {o : Nat} (h : PngReads d (.ok (some ts) o)) :
    Prints d (ts.flatMap plainLines) (.ok () o) := by
  obtain ⟨body, tail, rfl, hb, ht, rfl⟩ := (C56_png_accepts_exactly d ts o).mp h
  obtain ⟨cs, h1, h2⟩ := chunks_raw hb
  exact report_prints ⟨cs, body, tail, rfl, h1, .inl ⟨ht, h2.symm, rfl⟩⟩

/-- The line without the byte in it. -/
def Line.bare : Line → Line
  | .critical _ b => .critical none b
  | .isPublic _ b => .isPublic none b
  | .reserved _ b => .reserved none b
  | .unsafeCopy _ b => .unsafeCopy none b
  | l => l

/-- **C97 (the examples agree, in part).** Full statement: about a chunk whose type is four letters the two
examples print the same (but for the byte itself and the two last lines, which only `png.rs` prints).
Proved for public/private, the reserved bit, safe/unsafe to copy and the length.  What is missing is
the first line: the two programs never agree on it. -/
theorem _root_.Neure.C97_examples_agree_partial (t : Trunk) (h : Letter t.ancillary ∧ Letter t.priv ∧ Letter t.reserved ∧ Letter t.safeCopy) :
    ((plainLines t).map Line.bare).tail = (lines2 t).tail ++ [.skipped t.data.length, .crc true] ∧
    ((plainLines t).map Line.bare).head? = some (.critical none (isUppercase t.ancillary)) ∧
    (lines2 t).head? = some (.critical none (!isUppercase t.ancillary)) := by
  obtain ⟨h1, h2, h3, h4⟩ := h
  refine ⟨?_, rfl, ?_⟩
  · simp [plainLines, lines2, Line.bare, letter_case h2, letter_case h3, letter_case h4]
  · simp [lines2, letter_case h1]

/-- **C97 (counterexample).** The `IEND` chunk every PNG file ends with is critical (its first letter is upper
case): `png.rs` prints so, `png2.rs` prints "ancillary". -/
theorem _root_.Neure.C97_critical_counterexample :
    let d : List UInt8 := pngHead ++ [0, 0, 0, 0, 73, 69, 78, 68, 0xAE, 0x42, 0x60, 0x82]
    let t : Trunk := ⟨73, 69, 78, 68, 0xAE426082, []⟩
    PngReads d (.ok (some [t]) 20) ∧ (lines2 t).head? = some (.critical none false) ∧
    ∃ l, Prints d (.critical (some 73) true :: l) (.ok () 20) := by
  intro d t
  have hc : IsChunk t [0, 0, 0, 0, 73, 69, 78, 68, 0xAE, 0x42, 0x60, 0x82] :=
    ⟨[0, 0, 0, 0], [73, 69, 78, 68], [0xAE, 0x42, 0x60, 0x82], rfl,
      ⟨rfl, by decide, by decide⟩, rfl, ⟨rfl, by decide, by decide⟩, by decide +kernel⟩
  have h := (C56_png_accepts_exactly d [t] 20).mpr
    ⟨_, [], rfl, by simpa using IsChunks.cons hc .nil, by simp, rfl⟩
  exact ⟨h, rfl, _, C97_same_chunks h⟩

/-- Letters other than ASCII ones: `png.rs` goes by Unicode, `png2.rs` by ASCII; about `'0'` they differ too. -/
example : isUppercase 48 = false ∧ isLowercase 48 = false := ⟨rfl, rfl⟩

/-- Non-vacuity: a chunk with a wrong checksum is reported as such. -/
example : ∃ l, Prints (pngHead ++ [0, 0, 0, 0, 73, 69, 78, 68, 0, 0, 0, 0]) (l ++ [.crc false]) (.ok () 20) := by
  have hc : IsRaw ⟨[73, 69, 78, 68], [], 0⟩ [0, 0, 0, 0, 73, 69, 78, 68, 0, 0, 0, 0] :=
    ⟨[0, 0, 0, 0], [0, 0, 0, 0], rfl, ⟨rfl, by decide, by decide⟩, rfl, ⟨rfl, by decide, by decide⟩⟩
  have : (decide (0 = (crc32 ([73, 69, 78, 68] ++ [])).toNat)) = false := by decide +kernel
  have h := (C97_png_report (pngHead ++ [0, 0, 0, 0, 73, 69, 78, 68, 0, 0, 0, 0]) _ (.ok () 20)).mpr
    ⟨_, _, [], rfl, by simpa using AreRaw.cons hc .nil, .inl ⟨by simp, rfl, rfl⟩⟩
  simp only [List.flatMap_cons, List.flatMap_nil, List.append_nil, linesOf] at h this
  rw [this] at h
  exact ⟨typeLines 73 69 78 68 0 ++ [.skipped 0], by simpa using h⟩

end PngPlain

end Neure
