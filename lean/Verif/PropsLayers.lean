import Verif.Context
import Verif.PropsPolicy
import Verif.PropsLocal
import Verif.PropsLoop
/-!
# C71: positions and text of a context; C72: policies inside policies
-/

namespace Neure

set_option linter.unusedSectionVars false
set_option linter.unusedSimpArgs false

open Demo

variable {ι β : Type} [Item ι] {G : Rules ι β} {d : List ι}

/-! ## C71 -/

theorem origSub_out {d : List ι} {o n : Nat} :
    (∃ r, origSub d o n = .ok r) ∨ origSub d o n = .err .outOfBound := by
  unfold origSub
  split
  · exact .inr rfl
  · split
    · exact .inr rfl
    · exact .inl ⟨_, rfl⟩

theorem getElem_indices (l : List ι) (i k : Nat) :
    (indices i l)[k]? = l[k]?.map fun x => (i + blen (l.take k), x) := by
  induction l generalizing i k with
  | nil => simp
  | cons y l ih =>
    cases k with
    | zero => simp
    | succ k => simp [ih, Nat.add_assoc]

/-- The content of a policy context is the content of what is inside. -/
theorem Cx.inside (c : Cx ι β) (o n : Nat) :
    c.len = blen c.dat ∧ c.origSub o n = Neure.origSub c.dat o n ∧ c.origAt o = Neure.origAt c.dat o ∧
    c.peekAt o = Neure.peek c.dat o ∧
    c.getBySpan ⟨o, n⟩ = (match Neure.origSub c.dat o n with | .ok l => some l | _ => none) := by
  induction c with
  | plain c => exact ⟨rfl, rfl, rfl, rfl, rfl⟩
  | policy i r ih => exact ih

/-- **C71 (pieces of the text).** In a context with any policies: `orig_sub(o, n)` and
`get_by_span` give exactly the piece of `n` bytes at `o`, and an error (nothing) when
there is none or its ends are inside a character; `len` is the length in bytes. -/
theorem C71_text (c : Cx ι β) (o n : Nat) (t : List ι) :
    (c.origSub o n = .ok t ↔ ∃ pre post, c.dat = pre ++ t ++ post ∧ blen pre = o ∧ blen t = n) ∧
    ((¬ ∃ t, c.origSub o n = .ok t) ↔ c.origSub o n = .err .outOfBound) ∧
    (c.getBySpan ⟨o, n⟩ = some t ↔ ∃ pre post, c.dat = pre ++ t ++ post ∧ blen pre = o ∧ blen t = n) ∧
    c.len = blen c.dat ∧ (c.isEmpty = true ↔ c.dat = []) := by
  obtain ⟨h1, h2, h3, h4, h5⟩ := c.inside o n
  refine ⟨by rw [h2, origSub_ok], ?_, ?_, h1, by simp [Cx.isEmpty, h1, blen_eq_zero]⟩
  · rw [h2]
    rcases origSub_out (d := c.dat) (o := o) (n := n) with ⟨r, h⟩ | h <;> simp [h]
  · rw [h5, ← origSub_ok]
    cases Neure.origSub c.dat o n <;> simp

example : (Cx.skipBefore (β := Nat) ⟨['a', 'é', 'b'], 0⟩ .empty).origSub 1 2 = .ok ['é'] ∧
    (Cx.skipBefore (β := Nat) ⟨['a', 'é', 'b'], 0⟩ .empty).origSub 1 1 = .err .outOfBound := by decide

/-- **C71 (the text ahead).** `orig_at(o)` and `peek_at(o)` give the text from `o` and
its items with their byte positions counted from `o`; `orig` and `peek` do so at the
current position. Anywhere else it is an error for text, a panic past the end of bytes. -/
theorem C71_ahead (c : Cx ι β) (o : Nat) :
    (∀ t, c.origAt o = .ok t ↔ ∃ pre, c.dat = pre ++ t ∧ blen pre = o) ∧
    (∀ l, c.peekAt o = .ok l ↔ ∃ pre t, c.dat = pre ++ t ∧ blen pre = o ∧
      ∀ k, l[k]? = t[k]?.map fun x => (blen (t.take k), x)) ∧
    (c.origAt o = .panic ↔ Item.strict ι = true ∧ blen c.dat < o) ∧
    (c.peekAt o = .panic ↔ Item.strict ι = true ∧ blen c.dat < o) ∧
    (∀ e, c.origAt o = .err e → e = .outOfBound) ∧ (∀ e, c.peekAt o = .err e → e = .outOfBound) ∧
    c.orig = c.origAt c.offset ∧ c.peek = c.peekAt c.offset := by
  obtain ⟨-, -, h3, h4, -⟩ := c.inside o 0
  have hp : Neure.origAt c.dat o = .panic ↔ Item.strict ι = true ∧ blen c.dat < o := by
    unfold Neure.origAt
    split
    · next h => simpa using h
    · next h =>
      constructor
      · intro h'; split at h' <;> cases h'
      · intro h'; exact absurd (by simpa using h') h
  have he : ∀ e, Neure.origAt c.dat o = .err e → e = .outOfBound := by
    intro e
    unfold Neure.origAt
    split
    · intro h; cases h
    · split <;> intro h <;> cases h; rfl
  rw [h3, h4]
  refine ⟨fun t => ?_, fun l => ?_, hp, ?_, he, ?_, rfl, rfl⟩
  · rw [origAt_ok, dropB_eq_some]
  · rw [peek_ok]
    simp only [dropB_eq_some]
    constructor
    · rintro ⟨t, ⟨pre, h1, h2⟩, rfl⟩
      exact ⟨pre, t, h1, h2, fun k => by rw [getElem_indices, Nat.zero_add]⟩
    · rintro ⟨pre, t, h1, h2, h⟩
      refine ⟨t, ⟨pre, h1, h2⟩, List.ext_getElem? fun k => ?_⟩
      rw [h, getElem_indices, Nat.zero_add]
  · rw [← hp]
    unfold Neure.peek
    cases Neure.origAt c.dat o <;> simp
  · unfold Neure.peek
    intro e h
    cases h' : Neure.origAt c.dat o with
    | ok l => rw [h'] at h; cases h
    | err e' => rw [h'] at h; cases h; exact he _ h'
    | panic => rw [h'] at h; cases h

example : (Cx.skipBefore (β := Nat) ⟨['a', 'é', 'b'], 0⟩ .empty).peekAt 1 = .ok [(0, 'é'), (2, 'b')] ∧
    (Cx.skipBefore (β := Nat) ⟨['a', 'é', 'b'], 0⟩ .empty).peekAt 2 = .err .outOfBound := by decide
/-- Bytes past the end. -/
example : (Cx.plain (β := Nat) ⟨[(1 : UInt8), 2], 0⟩).origAt 3 = .panic ∧
    (Cx.plain (β := Nat) ⟨[(1 : UInt8), 2], 0⟩).origAt 2 = .ok [] := by decide

/-- **C71 (moving).** `set_offset`, `inc`, `dec` move the position, and nothing else:
text and policies stay. -/
theorem C71_moving (c : Cx ι β) (n : Nat) :
    ((c.setOffset n).offset = n ∧ (c.setOffset n).dat = c.dat ∧ (c.setOffset n).layers = c.layers) ∧
    (∀ c', c.inc n = some c' ↔ c.offset + n ≤ usizeMax ∧ c' = c.setOffset (c.offset + n)) ∧
    (∀ c', c.dec n = some c' ↔ n ≤ c.offset ∧ c' = c.setOffset (c.offset - n)) ∧
    (∀ m, (c.setOffset n).setOffset m = c.setOffset m) ∧ c.setOffset c.offset = c := by
  refine ⟨?_, ?_, ?_, ?_, ?_⟩
  · induction c with
    | plain c => exact ⟨rfl, rfl, rfl⟩
    | policy i r ih => exact ⟨ih.1, ih.2.1, congrArg (r :: ·) ih.2.2⟩
  · induction c with
    | plain c => intro c'; simp only [Cx.inc, Cx.offset, Cx.setOffset]; split <;> grind
    | policy i r ih =>
      intro c'
      simp only [Cx.inc, Cx.offset, Cx.setOffset, Option.map_eq_some_iff, ih]
      constructor
      · rintro ⟨_, ⟨h, rfl⟩, rfl⟩; exact ⟨h, rfl⟩
      · rintro ⟨h, rfl⟩; exact ⟨_, ⟨h, rfl⟩, rfl⟩
  · induction c with
    | plain c => intro c'; simp only [Cx.dec, Cx.offset, Cx.setOffset]; split <;> grind
    | policy i r ih =>
      intro c'
      simp only [Cx.dec, Cx.offset, Cx.setOffset, Option.map_eq_some_iff, ih]
      constructor
      · rintro ⟨_, ⟨h, rfl⟩, rfl⟩; exact ⟨h, rfl⟩
      · rintro ⟨h, rfl⟩; exact ⟨_, ⟨h, rfl⟩, rfl⟩
  · intro m
    induction c with
    | plain c => rfl
    | policy i r ih => simp only [Cx.setOffset, ih]
  · induction c with
    | plain c => rfl
    | policy i r ih => simp only [Cx.setOffset, Cx.offset, ih]

example : (Cx.skipBefore (β := Nat) ⟨['a', 'b'], 1⟩ .empty).dec 2 = none ∧
    ((Cx.skipBefore (β := Nat) ⟨['a', 'b'], 1⟩ .empty).dec 1).map Cx.offset = some 0 := by decide

/-- **C71 (starting over).** `reset`, `reset_with`, `RegexCtx::with` give a context at the
start of the text; `with_offset` and `with_dat` change only what they name. -/
theorem C71_reset {γ : Type} (c : RCtx ι) (t : List ι) (o : Nat) (f : RCtx ι → γ) :
    (RCtx.new t).dat = t ∧ (RCtx.new t).offset = 0 ∧
    c.reset = RCtx.new c.dat ∧ c.resetWith t = RCtx.new t ∧ RCtx.with_ t f = f (RCtx.new t) ∧
    (c.withOffset o).offset = o ∧ (c.withOffset o).dat = c.dat ∧
    (c.withDat t).offset = c.offset ∧ (c.withDat t).dat = t :=
  ⟨rfl, rfl, rfl, rfl, rfl, rfl, rfl, rfl, rfl⟩

/-- Specification: the results of `k` calls of `next` and the iterator afterwards. -/
def BytesIndices.calls : Nat → BytesIndices → Option (List (Option (Nat × UInt8)) × BytesIndices)
  | 0, it => some ([], it)
  | k + 1, it =>
    match it.next with
    | none => none
    | some (x, it) => (calls k it).map fun r => (x :: r.1, r.2)

/-- **C71 (iterating over bytes).** `next` gives the bytes with their positions, then
`None` for ever, without panic; `size_hint` is exact at any time. -/
theorem C71_bytes (bytes : List UInt8) (k : Nat) :
    ∃ it, (BytesIndices.new bytes).calls k =
        some ((List.range k).map fun i => bytes[i]?.map fun b => (i, b), it) ∧
      it.sizeHint = some (bytes.length - k, some (bytes.length - k)) := by
  have key : ∀ k j, j ≤ bytes.length →
      BytesIndices.calls k ⟨j, bytes⟩ =
        some ((List.range k).map fun i => bytes[j + i]?.map fun b => (j + i, b),
          ⟨min (j + k) bytes.length, bytes⟩) := by
    intro k
    induction k with
    | zero => intro j hj; simp [BytesIndices.calls]; omega
    | succ k ih =>
      intro j hj
      simp only [BytesIndices.calls, BytesIndices.next]
      by_cases h : j < bytes.length
      · simp only [h, if_true, List.getElem?_eq_getElem h]
        rw [ih (j + 1) (by omega)]
        simp only [Option.map_some, List.range_succ_eq_map, List.map_cons, List.map_map, Nat.add_zero,
          List.getElem?_eq_getElem h]
        simp only [Function.comp_def, Nat.succ_eq_add_one, Nat.add_assoc, Nat.add_comm 1]
      · have hj : j = bytes.length := by omega
        subst hj
        simp only [Nat.lt_irrefl, if_false, ih _ (Nat.le_refl _), Option.map_some, List.range_succ_eq_map,
          List.map_cons, List.map_map]
        simp
  refine ⟨⟨min (0 + k) bytes.length, bytes⟩, ?_, ?_⟩
  · have := key k 0 (Nat.zero_le _)
    simpa [BytesIndices.new] using this
  · simp only [BytesIndices.sizeHint, Nat.zero_add]
    rw [if_pos (Nat.min_le_right _ _)]
    have : bytes.length - min k bytes.length = bytes.length - k := by omega
    rw [this]

theorem cloneAt_eq (c : Cx ι β) (o : Nat) :
    c.cloneAt o = match c.origAt o with
      | .ok l => .ok (c.layers.foldr (fun q i => .policy i q) (.plain (.new l)))
      | .err e => .err e
      | .panic => .panic := by
  induction c with
  | plain c => rfl
  | policy i r ih =>
    show (match i.cloneAt o with | .ok i => _ | .err e => _ | .panic => _) = _
    rw [ih]
    show _ = match i.origAt o with | .ok l => _ | .err e => _ | .panic => _
    cases i.origAt o <;> rfl

theorem foldr_of_layers (c : Cx ι β) :
    c.layers.foldr (fun q i => Cx.policy i q) (.plain ⟨c.dat, c.offset⟩) = c := by
  induction c with
  | plain c => rfl
  | policy i r ih => exact congrArg (Cx.policy · r) ih

theorem foldr_layers (ls : List (Pat ι β)) (x : RCtx ι) :
    (ls.foldr (fun q i => Cx.policy i q) (.plain x)).layers = ls ∧
    (ls.foldr (fun q i => Cx.policy i q) (.plain x)).dat = x.dat ∧
    (ls.foldr (fun q i => Cx.policy i q) (.plain x)).offset = x.offset := by
  induction ls with
  | nil => exact ⟨rfl, rfl, rfl⟩
  | cons q ls ih => exact ⟨congrArg (q :: ·) ih.1, ih.2⟩

/-- **C71 (a context further on).** `clone_at(o)` gives the context with the same
policies whose text is the text from `o`, at its beginning; it fails as `orig_at(o)`
does. -/
theorem C71_clone (c : Cx ι β) (o : Nat) :
    (∀ c', c.cloneAt o = .ok c' ↔
      (∃ pre, c.dat = pre ++ c'.dat ∧ blen pre = o) ∧ c'.offset = 0 ∧ c'.layers = c.layers) ∧
    (∀ e, c.cloneAt o = .err e ↔ c.origAt o = .err e) ∧
    (c.cloneAt o = .panic ↔ c.origAt o = .panic) := by
  have ha := (C71_ahead c o).1
  rw [cloneAt_eq]
  refine ⟨fun c' => ⟨fun h => ?_, fun ⟨h1, h2, h3⟩ => ?_⟩, fun e => ?_, ?_⟩
  · cases hl : c.origAt o with
    | err e => rw [hl] at h; cases h
    | panic => rw [hl] at h; cases h
    | ok l =>
      rw [hl] at h
      cases h
      obtain ⟨h1, h2, h3⟩ := foldr_layers c.layers (RCtx.new l)
      rw [h1, h2, h3]
      exact ⟨(ha l).mp hl, rfl, rfl⟩
  · rw [(ha _).mpr h1]
    have := foldr_of_layers c'
    rw [h2, h3] at this
    exact congrArg Out.ok this
  · cases c.origAt o <;> simp
  · cases c.origAt o <;> simp

/-- Shifting does not change whether there is a result. -/
theorem sh_eq_some {k : Nat} {r : Option (Res Span)} {x : Res Span} :
    sh k r = some x ↔ ∃ y, x = y.shift k ∧ r = some y := by
  cases r with
  | none => simp
  | some y => simp [sh, eq_comm]

theorem parseLayers_sh (n : Nat) (ls : List (Pat ι β)) (hls : ∀ q ∈ ls, All G Local q) (pre d : List ι)
    (p : Pat ι β) (hp : All G Local p) (o : Nat) :
    parseLayers G n ls (pre ++ d) p (blen pre + o) = sh (blen pre) (parseLayers G n ls d p o) := by
  induction n generalizing ls p o with
  | zero => rfl
  | succ n ih =>
    refine step_sh n pre d p o hp (fun q hq o => ?_) (fun q hq o => ih ls hls q hq o)
    cases ls with
    | nil => exact ih [] hls q hq o
    | cons w ls =>
      exact caseR_sh (ih ls (fun x hx => hls x (by simp [hx])) w (hls w (by simp)) o)
        (fun _ o' => ih _ hls q hq o') (fun _ _ => rfl)

/-- **C71 (matching further on).** Matching in the clone is matching at `o`, with all
positions counted from `o`, for patterns and policies that do not look at the absolute
position. -/
theorem C71_clone_matches (c c' : Cx ι β) (o : Nat) (hc : c.cloneAt o = .ok c')
    (hls : ∀ q ∈ c.layers, All G Local q) (p : Pat ι β) (hp : All G Local p) (r : Res Span) :
    (c.setOffset o).Mat G p r ↔ ∃ r', r = r'.shift o ∧ c'.Mat G p r' := by
  obtain ⟨⟨pre, hd, ho⟩, h0, hl⟩ := ((C71_clone c o).1 c').mp hc
  obtain ⟨m1, m2, m3⟩ := (C71_moving c o).1
  have key : ∀ n, matLayers (parseLayers G n) c.layers (pre ++ c'.dat) p (blen pre + 0) =
      sh (blen pre) (matLayers (parseLayers G n) c.layers c'.dat p 0) := by
    intro n
    generalize c.layers = ls at hls
    cases ls with
    | nil => exact parseLayers_sh n [] hls _ _ p hp 0
    | cons w ls =>
      exact caseR_sh (parseLayers_sh n ls (fun x hx => hls x (by simp [hx])) _ _ w (hls w (by simp)) 0)
        (fun _ o' => parseLayers_sh n _ hls _ _ p hp o') (fun _ _ => rfl)
  unfold Cx.Mat
  rw [m1, m2, m3, hd, h0, hl, ← ho]
  simp only [Nat.add_zero] at key
  simp only [key, sh_eq_some]
  constructor
  · rintro ⟨n, y, h1, h2⟩; exact ⟨y, h1, n, h2⟩
  · rintro ⟨y, h1, n, h2⟩; exact ⟨n, y, h1, h2⟩

example (r : Res Span) :
    ((Cx.skipBefore ⟨['a', ' ', 'b'], 0⟩ spaces).setOffset 1).Mat G0 (.lit ['b']) r ↔
      ∃ r', r = r'.shift 1 ∧ (Cx.skipBefore ⟨[' ', 'b'], 0⟩ spaces).Mat G0 (.lit ['b']) r' :=
  C71_clone_matches _ _ 1 rfl (fun q hq => by
    rw [List.mem_singleton.mp hq]; exact all_spaces trivial) _ (all_lit trivial) r

/-- An anchor does look at the absolute position. -/
example : ((Cx.plain ⟨['a', 'b'], 0⟩ : Cx Char Nat).setOffset 1).Mat G0 .start (.err .anchorStart 1) ∧
    ((Cx.plain ⟨['a', 'b'], 0⟩ : Cx Char Nat).cloneAt 1) = .ok (.plain ⟨['b'], 0⟩) ∧
    (Cx.plain ⟨['b'], 0⟩ : Cx Char Nat).Mat G0 .start (.ok ⟨0, 0⟩ 0) := ⟨⟨3, by decide⟩, rfl, ⟨3, by decide⟩⟩

/-! ## C72 -/

theorem step_le {mt mt' : List ι → Pat ι β → Nat → Option (Res Span)}
    {pr pr' : Pat ι β → Nat → Option (Res Span)} (hm : ∀ d p o, Le (mt d p o) (mt' d p o))
    (hp : ∀ p o, Le (pr p o) (pr' p o)) (n : Nat) (d : List ι) (p : Pat ι β) (o : Nat) :
    Le (step G n mt pr d p o) (step G (n + 1) mt' pr' d p o) := by
  have chain : ∀ {γ : Type} (x y : Option γ), Le x y → Approx (fun k => if k ≤ n then x else y) y := by
    intro γ x y h
    apply approx_intro
    · intro a b hab
      by_cases ha : a ≤ n
      · by_cases hb : b ≤ n
        · simp only [ha, hb, if_true]; exact Le.refl _
        · simp only [ha, hb, if_true, if_false]; exact h
      · have hb : ¬ b ≤ n := by omega
        simp only [ha, hb, if_false]; exact Le.refl _
    · intro k
      by_cases hk : k ≤ n
      · simp only [hk, if_true]; exact h
      · simp only [hk, if_false]; exact Le.refl _
    · intro z hz
      refine ⟨n + 1, ?_⟩
      have : ¬ n + 1 ≤ n := by omega
      simp only [this, if_false]; exact hz
  have := (approx_step (G := G) (mt := fun k d p o => if k ≤ n then mt d p o else mt' d p o)
    (pr := fun k p o => if k ≤ n then pr p o else pr' p o)
    (hm := fun d p o => chain _ _ (hm d p o)) (hp := fun p o => chain _ _ (hp p o)) d p o).1 n (n + 1) (by omega)
  have h : ¬ n + 1 ≤ n := by omega
  simpa only [Nat.le_refl, if_true, h, if_false] using this

theorem matLayers_le {pr pr' : List (Pat ι β) → List ι → Pat ι β → Nat → Option (Res Span)}
    (h : ∀ ls d p o, Le (pr ls d p o) (pr' ls d p o)) (ls : List (Pat ι β)) (d : List ι) (p : Pat ι β) (o : Nat) :
    Le (matLayers pr ls d p o) (matLayers pr' ls d p o) := by
  cases ls with
  | nil => exact h _ _ _ _
  | cons q ls => exact caseR_le (h _ _ _ _) (fun _ _ => h _ _ _ _) (fun _ _ => Le.refl _)

theorem parseLayers_mono (ls : List (Pat ι β)) (d : List ι) (p : Pat ι β) (o : Nat) :
    Mono fun n => parseLayers G n ls d p o := by
  have hs : ∀ n ls d p o, Le (parseLayers G n ls d p o) (parseLayers G (n + 1) ls d p o) := by
    intro n
    induction n with
    | zero => intros; exact Le.none _
    | succ n ih => intro ls d p o; exact step_le (matLayers_le ih ls) (ih ls d) n d p o
  intro n m h
  induction h with
  | refl => exact Le.refl _
  | step _ ih => exact Le.trans ih (hs _ _ _ _ _)

/-- `p.try_parse(ctx)` without fuel. -/
noncomputable def parseLayersL (G : Rules ι β) (ls : List (Pat ι β)) (d : List ι) (p : Pat ι β) (o : Nat) :
    Option (Res Span) := lim fun n => parseLayers G n ls d p o

theorem approx_parseLayers (ls : List (Pat ι β)) (d : List ι) (p : Pat ι β) (o : Nat) :
    Approx (fun n => parseLayers G n ls d p o) (parseLayersL G ls d p o) := ⟨parseLayers_mono _ _ _ _, rfl⟩

theorem approx_matLayers (ls : List (Pat ι β)) (d : List ι) (p : Pat ι β) (o : Nat) :
    Approx (fun n => matLayers (parseLayers G n) ls d p o) (matLayers (parseLayersL G) ls d p o) := by
  cases ls with
  | nil => exact approx_parseLayers _ _ _ _
  | cons q ls =>
    exact approx_caseR (approx_parseLayers _ _ _ _) (fun _ _ => approx_parseLayers _ _ _ _)
      (fun _ _ => approx_const _)

theorem parseLayersL_eq (ls : List (Pat ι β)) (d : List ι) (p : Pat ι β) (o : Nat) :
    parseLayersL G ls d p o = stepL G (matLayers (parseLayersL G) ls) (parseLayersL G ls d) d p o := by
  have h := approx_step (G := G) (hm := fun d p o => approx_matLayers (G := G) ls d p o)
    (hp := fun p o => approx_parseLayers (G := G) ls d p o) d p o
  rw [← h.2, show parseLayersL G ls d p o = lim fun n => parseLayers G n ls d p o from rfl,
    ← lim_succ (parseLayers_mono ls d p o)]
  rfl

theorem matIn_iff {c : Cx ι β} {p : Pat ι β} {r : Res Span} :
    c.Mat G p r ↔ matLayers (parseLayersL G) c.layers c.dat p c.offset = some r := by
  have h := approx_matLayers (G := G) c.layers c.dat p c.offset
  rw [← h.2, lim_eq_some h.1]; rfl

theorem parseIn_iff {c : Cx ι β} {p : Pat ι β} {r : Res Span} :
    c.Parse G p r ↔ parseLayersL G c.layers c.dat p c.offset = some r := by
  have h := approx_parseLayers (G := G) c.layers c.dat p c.offset
  rw [← h.2, lim_eq_some h.1]; rfl

/-- Fuel stays below every family that satisfies the equations. -/
theorem below_of_step {F : Nat → List ι → Pat ι β → Nat → Option (Res Span)}
    {M : Nat → List ι → Pat ι β → Nat → Option (Res Span)}
    (h0 : ∀ d p o, F 0 d p o = none) (hs : ∀ n d p o, F (n + 1) d p o = step G n (M n) (F n d) d p o)
    {mt : List ι → Pat ι β → Nat → Option (Res Span)} {pr : List ι → Pat ι β → Nat → Option (Res Span)}
    (hm : ∀ n, (∀ d p o, Le (F n d p o) (pr d p o)) → ∀ d p o, Le (M n d p o) (mt d p o))
    (hp : ∀ d p o, pr d p o = stepL G mt (pr d) d p o) (n : Nat) (d : List ι) (p : Pat ι β) (o : Nat) :
    Le (F n d p o) (pr d p o) := by
  induction n generalizing d p o with
  | zero => rw [h0]; exact Le.none _
  | succ n ih =>
    rw [hp, hs]
    refine Le.trans (step_le (hm n ih) (ih d) n d p o) ?_
    exact (approx_step (G := G) (mt := fun _ => mt) (pr := fun _ => pr d) (hm := fun _ _ _ => approx_const _)
      (hp := fun _ _ => approx_const _) d p o).le (n + 1)

theorem le_antisymm {α : Type} {a b : Option α} (h : Le a b) (h' : Le b a) : a = b := by
  cases a with
  | some x => exact (h x rfl).symm
  | none =>
    cases b with
    | none => rfl
    | some x => exact h' x rfl

theorem lim_le {α : Type} {f : Nat → Option α} {g : Option α} (hf : Mono f) (h : ∀ n, Le (f n) g) :
    Le (lim f) g := by
  intro x hx
  obtain ⟨n, hn⟩ := (lim_eq_some hf x).mp hx
  exact h n x hn

/-- The policies inside matter only through what the policy around them does. -/
theorem parseLayersL_replace {q q' : Pat ι β} {ls ls' : List (Pat ι β)}
    (h : ∀ d o, parseLayersL G ls d q o = parseLayersL G ls' d q' o) (d : List ι) (p : Pat ι β) (o : Nat) :
    parseLayersL G (q :: ls) d p o = parseLayersL G (q' :: ls') d p o := by
  have one : ∀ {q q' : Pat ι β} {ls ls' : List (Pat ι β)},
      (∀ d o, parseLayersL G ls d q o = parseLayersL G ls' d q' o) → ∀ d p o,
      Le (parseLayersL G (q :: ls) d p o) (parseLayersL G (q' :: ls') d p o) := by
    intro q q' ls ls' h d p o
    refine lim_le (parseLayers_mono _ _ _ _) fun n => ?_
    refine below_of_step (F := fun n => parseLayers G n (q :: ls))
      (M := fun n => matLayers (parseLayers G n) (q :: ls)) (mt := matLayers (parseLayersL G) (q' :: ls'))
      (pr := parseLayersL G (q' :: ls')) (fun _ _ _ => rfl) (fun _ _ _ _ => rfl) (fun n ih d p o => ?_)
      (fun d p o => parseLayersL_eq _ d p o) n d p o
    refine caseR_le ?_ (fun _ o' => ih d p o') (fun _ _ => Le.refl _)
    rw [← h]
    exact (approx_parseLayers ls d q o).le n
  exact le_antisymm (one h d p o) (one (fun d o => (h d o).symm) d p o)

theorem parseLayersL_nil (d : List ι) (p : Pat ι β) (o : Nat) :
    parseLayersL G [] d p o = parseL G none d p o := by
  refine le_antisymm (lim_le (parseLayers_mono _ _ _ _) fun n => ?_) (lim_le (parse_mono _ _ _ _ _) fun n => ?_)
  · exact below_of_step (F := fun n => parseLayers G n []) (M := fun n => matLayers (parseLayers G n) [])
      (mt := matL G none) (pr := parseL G none) (fun _ _ _ => rfl) (fun _ _ _ _ => rfl) (fun n ih => ih)
      (fun d p o => parseL_eq G none d p o) n d p o
  · exact below_of_step (F := fun n => parse G n none) (M := fun n => matWith (parse G n) none)
      (mt := matLayers (parseLayersL G) []) (pr := parseLayersL G []) (fun _ _ _ => rfl) (fun _ _ _ _ => rfl)
      (fun n ih => ih) (fun d p o => parseLayersL_eq [] d p o) n d p o

theorem parseLayersL_one (q : Pat ι β) (d : List ι) (p : Pat ι β) (o : Nat) :
    parseLayersL G [q] d p o = parseL G (some q) d p o := by
  refine le_antisymm (lim_le (parseLayers_mono _ _ _ _) fun n => ?_) (lim_le (parse_mono _ _ _ _ _) fun n => ?_)
  · refine below_of_step (F := fun n => parseLayers G n [q]) (M := fun n => matLayers (parseLayers G n) [q])
      (mt := matL G (some q)) (pr := parseL G (some q)) (fun _ _ _ => rfl) (fun _ _ _ _ => rfl)
      (fun n ih d p o => ?_) (fun d p o => parseL_eq G (some q) d p o) n d p o
    refine caseR_le ?_ (fun _ o' => ih d p o') (fun _ _ => Le.refl _)
    rw [← parseLayersL_nil]
    exact (approx_parseLayers [] d q o).le n
  · refine below_of_step (F := fun n => parse G n (some q)) (M := fun n => matWith (parse G n) (some q))
      (mt := matLayers (parseLayersL G) [q]) (pr := parseLayersL G [q]) (fun _ _ _ => rfl) (fun _ _ _ _ => rfl)
      (fun n ih d p o => ?_) (fun d p o => parseLayersL_eq [q] d p o) n d p o
    refine caseR_le ?_ (fun _ o' => ih d p o') (fun _ _ => Le.refl _)
    rw [parseLayersL_nil]
    exact (approx_parse G none d q o).le n

/-- Specification: the context with these policies, the outermost first. -/
def Cx.wrap (ls : List (Pat ι β)) (c : RCtx ι) : Cx ι β := ls.foldr (fun q i => .policy i q) (.plain c)

@[simp] theorem wrap_layers (ls : List (Pat ι β)) (c : RCtx ι) : (Cx.wrap ls c).layers = ls := by
  induction ls with
  | nil => rfl
  | cons q ls ih => exact congrArg (q :: ·) ih
@[simp] theorem wrap_dat (ls : List (Pat ι β)) (c : RCtx ι) : (Cx.wrap ls c).dat = c.dat := by
  induction ls with
  | nil => rfl
  | cons q ls ih => exact ih
@[simp] theorem wrap_offset (ls : List (Pat ι β)) (c : RCtx ι) : (Cx.wrap ls c).offset = c.offset := by
  induction ls with
  | nil => rfl
  | cons q ls ih => exact ih

/-- **C72 (none or one).** With at most one policy this is the matching of all other
properties. -/
theorem C72_single (c : RCtx ι) (q p : Pat ι β) (r : Res Span) :
    ((Cx.plain c).Mat G p r ↔ Runs G none c.dat p c.offset r) ∧
    ((Cx.plain c).Parse G p r ↔ Parses G none c.dat p c.offset r) ∧
    ((Cx.skipBefore c q).Mat G p r ↔ Runs G (some q) c.dat p c.offset r) ∧
    ((Cx.skipBefore c q).Parse G p r ↔ Parses G (some q) c.dat p c.offset r) := by
  simp only [matIn_iff, parseIn_iff, runs_iff, parses_iff, Cx.skipBefore, Cx.layers, Cx.dat, Cx.offset,
    matLayers, parseLayersL_nil, parseLayersL_one, matL_none, matL_some, and_self]

/-- **C72 (which runs first).** `try_mat(p)` in a context with policy `q` around a
context `c`: `q` is parsed in `c`, that is with the policies of `c` before each of its
parts; then `p` from where `q` ended. -/
theorem C72_runs_first (c : Cx ι β) (q p : Pat ι β) (r : Res Span) :
    (Cx.policy c q).Mat G p r ↔
      (∃ s o, c.Parse G q (.ok s o) ∧ ((Cx.policy c q).setOffset o).Parse G p r) ∨
      (∃ e o, c.Parse G q (.err e o) ∧ r = .err e o) ∨ (c.Parse G q .panic ∧ r = .panic) := by
  have hm := fun o => C71_moving (Cx.policy c q) o
  simp only [matIn_iff, parseIn_iff, (hm _).1, Cx.layers, Cx.dat, Cx.offset, matLayers]
  cases hq : parseLayersL G c.layers c.dat q c.offset with
  | none => simp [caseR]
  | some v =>
    cases v with
    | ok a o1 =>
      simp only [caseR, Option.some.injEq, Res.ok.injEq, reduceCtorEq, false_and, exists_false, or_false]
      exact ⟨fun h => ⟨a, o1, ⟨rfl, rfl⟩, h⟩, fun ⟨_, _, ⟨h1, h2⟩, h⟩ => by rw [h2]; exact h⟩
    | err e o1 =>
      simp only [caseR, Option.some.injEq, Res.err.injEq, reduceCtorEq, false_and, exists_false, or_false,
        false_or]
      exact ⟨fun h => ⟨e, o1, ⟨rfl, rfl⟩, h.symm⟩, fun ⟨_, _, ⟨h1, h2⟩, h⟩ => by rw [h1, h2]; exact h.symm⟩
    | panic => simp [caseR, eq_comm]

/-- **C72 (replacing).** Of the policies inside nothing matters but what the policy
around them does with them: if `q` in one context always does what `q'` does in another,
the two with any pattern do the same. -/
theorem C72_replace (ls ls' : List (Pat ι β)) (q q' : Pat ι β)
    (h : ∀ c r, (Cx.wrap ls c).Parse G q r ↔ (Cx.wrap ls' c).Parse G q' r) (c : RCtx ι) (p : Pat ι β) (r : Res Span) :
    ((Cx.wrap (q :: ls) c).Mat G p r ↔ (Cx.wrap (q' :: ls') c).Mat G p r) ∧
    ((Cx.wrap (q :: ls) c).Parse G p r ↔ (Cx.wrap (q' :: ls') c).Parse G p r) := by
  have h' : ∀ d o, parseLayersL G ls d q o = parseLayersL G ls' d q' o := by
    intro d o
    apply Option.ext
    intro r
    have := h ⟨d, o⟩ r
    simpa [parseIn_iff] using this
  simp only [matIn_iff, parseIn_iff, wrap_layers, wrap_dat, wrap_offset, matLayers, h',
    parseLayersL_replace h', and_self]

theorem stepL_primitive {p : Pat ι β} (hp : Primitive p) {mt mt' : List ι → Pat ι β → Nat → Option (Res Span)}
    {pr pr' : Pat ι β → Nat → Option (Res Span)} (o : Nat) :
    stepL G mt pr d p o = stepL G mt' pr' d p o := by
  cases p
  case empty => rfl
  case fail => rfl
  case start => rfl
  case anchorEnd => rfl
  case consume => rfl
  case consumeAll => rfl
  case lit => rfl
  case native => rfl
  case once u c => simp only [stepL, step, onceParse, check_simple (mt := mt) (mt' := mt') hp u o]
  case many1 u c => simp only [stepL, step, many1Parse, check_simple (mt := mt) (mt' := mt') hp u o]
  case optU u c => simp only [stepL, step, optUParse, check_simple (mt := mt) (mt' := mt') hp u o]
  case many0 u c => simp only [stepL, step, many0Parse, check_simple (mt := mt) (mt' := mt') hp u o]
  case between m n u c => simp only [stepL, step, betweenParse, check_simple (mt := mt) (mt' := mt') hp u o]
  case times r u c => simp only [stepL, step, timesParse, check_simple (mt := mt) (mt' := mt') hp u o]
  case thenU u v c =>
    simp only [stepL, step, thenUParse, check_simple (mt := mt) (mt' := mt') hp u o,
      check_simple (mt := mt) (mt' := mt') hp v o]
  all_goals exact absurd hp id

/-- **C72 (policy of one piece).** A policy that runs no other pattern, such as
`whitespace().many0()`, hides the policies inside it: they are never applied. -/
theorem C72_hides (ls : List (Pat ι β)) (q : Pat ι β) (hq : Primitive q) (c : RCtx ι) (p : Pat ι β) (r : Res Span) :
    ((Cx.wrap (q :: ls) c).Mat G p r ↔ Runs G (some q) c.dat p c.offset r) ∧
    ((Cx.wrap (q :: ls) c).Parse G p r ↔ Parses G (some q) c.dat p c.offset r) := by
  have h := C72_replace (G := G) ls [] q q (fun c r => by
    simp only [parseIn_iff, wrap_dat, wrap_offset, wrap_layers]
    rw [parseLayersL_eq, parseLayersL_eq [], stepL_primitive hq]) c p r
  have h1 := C72_single (G := G) c q p r
  exact ⟨h.1.trans h1.2.2.1, h.2.trans h1.2.2.2⟩

/-- **C72 (policy with parts).** Around a context that skips `q`, the policy
`comment.repeat(0..)` skips `q` before every comment, and once more when no further
comment follows: `try_mat(p)` parses `p` from behind all of them. -/
theorem C72_parts (q comment p : Pat ι β) (c : RCtx ι) (s : Span) (o' : Nat) :
    (Cx.wrap [.rep comment ⟨.incl 0, .unb⟩, q] c).Mat G p (.ok s o') ↔
      ∃ k t o1 e o2, Applied G (some q) c.dat comment k ⟨c.offset, 0⟩ c.offset t o1 ∧
        Runs G (some q) c.dat comment o1 (.err e o2) ∧
        (Cx.wrap [.rep comment ⟨.incl 0, .unb⟩, q] ⟨c.dat, o2⟩).Parse G p (.ok s o') := by
  show (Cx.policy (Cx.skipBefore c q) _).Mat G p _ ↔ _
  rw [C72_runs_first]
  simp only [(C72_single (G := G) c q _ _).2.2.2, (C13_repeat comment _ _).1, reduceCtorEq, and_false, exists_false,
    or_false]
  constructor
  · rintro ⟨t, o2, ⟨k, o1, ha, _, _, ⟨h, _⟩ | ⟨_, e, he⟩⟩, hp⟩
    · exact absurd trivial h
    · exact ⟨k, t, o1, e, o2, ha, he, hp⟩
  · rintro ⟨k, t, o1, e, o2, ha, he, hp⟩
    exact ⟨t, o2, ⟨k, o1, ha, Nat.zero_le _, trivial, .inr ⟨trivial, e, he⟩⟩, hp⟩

/-- Blanks are skipped in a context that skips `#` as they are in a plain one, so the
two policies together are the one. -/
example (c : RCtx Char) (p : Pat Char Nat) (r : Res Span) :
    (Cx.wrap [spaces, .lit ['#']] c).Mat G0 p r ↔ (Cx.wrap [spaces] c).Mat G0 p r :=
  (C72_replace [.lit ['#']] [] spaces spaces (fun c r => by
    have h := stepL_primitive (G := G0) (p := spaces) (d := c.dat) trivial (mt := matLayers (parseLayersL G0) [.lit ['#']])
      (mt' := matLayers (parseLayersL G0) []) (pr := parseLayersL G0 [.lit ['#']] c.dat) (pr' := parseLayersL G0 [] c.dat)
      c.offset
    simp only [parseIn_iff, wrap_dat, wrap_offset, wrap_layers]
    rw [parseLayersL_eq, h, ← parseLayersL_eq]) c p r).1

/-- `# ` comments with blanks around them: both are skipped before `b`. -/
example : (Cx.wrap [.rep (.lit ['#']) ⟨.incl 0, .unb⟩, spaces] (.new [' ', '#', ' ', ' ', '#', ' ', 'b'])).Mat
    (β := Nat) G0 (.lit ['b']) (.ok ⟨6, 1⟩ 7) := ⟨20, by decide⟩

/-- The same with a policy of one piece, `'#'.many0()`: the blank is not skipped. -/
example : (Cx.wrap [.many0 (.item '#') .empty, spaces] (.new [' ', 'b'])).Mat
    (β := Nat) G0 (.lit ['b']) (.err .literal 0) := ⟨20, by decide⟩

end Neure
