import Verif.Api
import Verif.Takes
import Verif.PropsClass
import Verif.PropsAlgebra
/-!
# C65: skipping white space around a pattern
-/

namespace Neure

set_option linter.unusedSectionVars false
set_option linter.unusedSimpArgs false

open Demo

/-! ## Specification -/

/-- `ws` is the whole run of items of `W` in front of `y`. -/
def Blank {ι : Type} (W : ι → Prop) (ws y : List ι) : Prop :=
  (∀ x ∈ ws, W x) ∧ ∀ x b, y = x :: b → ¬ W x

section
variable {ι β σ : Type} [Item ι]

/-- `q` is `p` that also takes the `W`-items behind it. -/
def SkipsAfter (G : Rules ι β) (H : Handler ι β σ) (d : List ι) (W : ι → Prop) (p q : Pat ι β) : Prop :=
  ∀ pre ws y, d = pre ++ ws ++ y → Blank W ws y → ∀ o,
    (∀ s1, Runs G none d p o (.ok s1 (blen pre)) → s1.beg + s1.len = blen pre →
      ∀ r, Runs G none d q o r ↔ r = .ok ⟨s1.beg, s1.len + blen ws⟩ (blen pre + blen ws)) ∧
    (∀ st v st', Constructs G H none d p st o (.ok v st' (blen pre)) →
      ∀ r, Constructs G H none d q st o r ↔ r = .ok v st' (blen pre + blen ws))

/-- `q` fails with the error of `p` when `p` fails, and puts the position back. -/
def FailsAs (G : Rules ι β) (H : Handler ι β σ) (d : List ι) (p q : Pat ι β) (o o₀ : Nat) : Prop :=
  (∀ e o1, Runs G none d p o (.err e o1) → ∀ r, Runs G none d q o₀ r ↔ r = .err e o₀) ∧
  (∀ st e st' o1, Constructs G H none d p st o (.err e st' o1) →
    ∀ r, Constructs G H none d q st o₀ r ↔ r = .err e st' o₀)

/-- `q` is `p` tried behind the `W`-items that stand at the current position. -/
def SkipsBefore (G : Rules ι β) (H : Handler ι β σ) (d : List ι) (W : ι → Prop) (p q : Pat ι β) : Prop :=
  ∀ pre ws y, d = pre ++ ws ++ y → Blank W ws y →
    (∀ s1 o', Runs G none d p (blen pre + blen ws) (.ok s1 o') → s1.beg = blen pre + blen ws →
      ∀ r, Runs G none d q (blen pre) r ↔ r = .ok ⟨blen pre, blen ws + s1.len⟩ o') ∧
    (∀ st v st' o', Constructs G H none d p st (blen pre + blen ws) (.ok v st' o') →
      ∀ r, Constructs G H none d q st (blen pre) r ↔ r = .ok v st' o') ∧
    FailsAs G H d p q (blen pre + blen ws) (blen pre)

end

/-! ## Proofs -/

variable {ι β σ : Type} [Item ι] {G : Rules ι β} {H : Handler ι β σ} {d : List ι}

theorem blank_takeWhile {W : ι → Prop} {u : Neu ι} (hu : ∀ x, u.isMatch x = true ↔ W x) {ws y : List ι}
    (h : Blank W ws y) : (ws ++ y).takeWhile u.isMatch = ws :=
  maximal_eq ⟨fun x hx => (hu x).mpr (h.1 x hx), fun x b hy => by
    have := h.2 x b hy; rw [← hu] at this; simpa using this⟩

theorem runs_skip {W : ι → Prop} {u : Neu ι} (hu : ∀ x, u.isMatch x = true ↔ W x) {pre ws y : List ι}
    (hd : d = pre ++ ws ++ y) (h : Blank W ws y) (r : Res Span) :
    Runs (β := β) G none d (.many0 u .empty) (blen pre) r ↔
      r = .ok ⟨blen pre, blen ws⟩ (blen pre + blen ws) := by
  rw [runs_plain, C23_many0_takeWhile u pre (ws ++ y) (by simp [hd]), blank_takeWhile hu h]

theorem skips_after {W : ι → Prop} {u : Neu ι} (hu : ∀ x, u.isMatch x = true ↔ W x) (p : Pat ι β) :
    SkipsAfter G H d W p (.suf p (.many0 u .empty)) ∧ ∀ o, FailsAs G H d p (.suf p (.many0 u .empty)) o o := by
  refine ⟨fun pre ws y hd hb o => ⟨fun s1 hs hl r => ?_, fun st v st' hc r => ?_⟩, fun o =>
    ⟨fun e o1 he r => ?_, fun st e st' o1 he r => ?_⟩⟩
  · have hk := (runs_skip (G := G) (β := β) hu hd hb _).mpr rfl
    have := ((C08_suffix (G := G) (pol := none) (d := d) p (.many0 u .empty) o).1
      ⟨s1.beg, s1.len + blen ws⟩ (blen pre + blen ws)).mpr
      ⟨s1, _, _, hs, hk, by refine ⟨?_, ?_, ?_, ?_⟩ <;> dsimp only <;> omega⟩
    exact ⟨fun h => h.unique this, fun h => h ▸ this⟩
  · have hk := (runs_skip (G := G) (β := β) hu hd hb _).mpr rfl
    have := ((C08_suffix_construct (G := G) (H := H) (pol := none) (d := d) p (.many0 u .empty) st o).1
      v st' (blen pre + blen ws)).mpr ⟨_, _, hc, hk⟩
    exact ⟨fun h => h.unique this, fun h => h ▸ this⟩
  · have := ((C08_suffix (G := G) (pol := none) (d := d) p (.many0 u .empty) o).2.1 e o).mpr
      ⟨rfl, .inl ⟨_, he⟩⟩
    exact ⟨fun h => h.unique this, fun h => h ▸ this⟩
  · have := ((C08_suffix_construct (G := G) (H := H) (pol := none) (d := d) p (.many0 u .empty) st o).2
      e st' o).mpr ⟨rfl, .inl ⟨_, he⟩⟩
    exact ⟨fun h => h.unique this, fun h => h ▸ this⟩

theorem skips_before {W : ι → Prop} {u : Neu ι} (hu : ∀ x, u.isMatch x = true ↔ W x) (p : Pat ι β) :
    SkipsBefore G H d W p (.pre (.many0 u .empty) p) := by
  intro pre ws y hd hb
  have hk := (runs_skip (G := G) (β := β) hu hd hb _).mpr rfl
  refine ⟨fun s1 o' hs hl r => ?_, fun st v st' o' hc r => ?_,
    fun e o1 he r => ?_, fun st e st' o1 he r => ?_⟩
  · have := ((C08_prefix (G := G) (pol := none) (d := d) (.many0 u .empty) p (blen pre)).1
      ⟨blen pre, blen ws + s1.len⟩ o').mpr
      ⟨_, _, s1, hk, hs, by refine ⟨?_, ?_, ?_, ?_⟩ <;> dsimp only <;> omega⟩
    exact ⟨fun h => h.unique this, fun h => h ▸ this⟩
  · have := ((C08_prefix_construct (G := G) (H := H) (pol := none) (d := d) (.many0 u .empty) p st (blen pre)).1
      v st' o').mpr ⟨_, _, hk, hc⟩
    exact ⟨fun h => h.unique this, fun h => h ▸ this⟩
  · have := ((C08_prefix (G := G) (pol := none) (d := d) (.many0 u .empty) p (blen pre)).2.1 e _).mpr
      ⟨rfl, .inr ⟨_, _, _, hk, he⟩⟩
    exact ⟨fun h => h.unique this, fun h => h ▸ this⟩
  · have := ((C08_prefix_construct (G := G) (H := H) (pol := none) (d := d) (.many0 u .empty) p st (blen pre)).2
      e st' _).mpr ⟨rfl, .inr ⟨_, _, _, hk, he⟩⟩
    exact ⟨fun h => h.unique this, fun h => h ▸ this⟩

/-! ## C65 -/

/-- **C65 (`skip_ws`).** `p.skip_ws()` succeeds where `p` does, with the same
value; it takes in addition the whole run of Unicode white space behind what `p`
took, and nothing else.  It fails where `p` fails, with the same error. -/
theorem C65_skip_ws {G : Rules Char β} {H : Handler Char β σ} {d : List Char} (p : Pat Char β) :
    SkipsAfter G H d (· ∈ Chars.unicodeBlanks) p (Api.skipWs p) ∧
    ∀ o, FailsAs G H d p (Api.skipWs p) o o :=
  skips_after (fun x => (C59_whitespace_control x).1) p

/-- **C65 (`skip_ascii_ws`).** The same for space, tab, line feed, carriage return
and form feed, on strings and on bytes. -/
theorem C65_skip_ascii_ws {G : Rules Char β} {H : Handler Char β σ} {d : List Char}
    {G' : Rules UInt8 β} {H' : Handler UInt8 β σ} {d' : List UInt8} (p : Pat Char β) (p' : Pat UInt8 β) :
    (SkipsAfter G H d (· ∈ Chars.blanks) p (Api.skipAsciiWs p) ∧
      ∀ o, FailsAs G H d p (Api.skipAsciiWs p) o o) ∧
    (SkipsAfter G' H' d' (· ∈ Chars.blanks.map byteOf) p' (Api.skipAsciiWs p') ∧
      ∀ o, FailsAs G' H' d' p' (Api.skipAsciiWs p') o o) :=
  ⟨skips_after C59_ascii_classes.2.2.2.2.2.2.2.2.1.1 p,
   skips_after C59_ascii_classes.2.2.2.2.2.2.2.2.1.2 p'⟩

/-- **C65 (`skip_ws_leading`).** `p.skip_ws_leading()` does behind the run of white
space at the current position what `p` does there; the run is part of the match.
When `p` fails there the position is put back before the white space. -/
theorem C65_skip_ws_leading {G : Rules Char β} {H : Handler Char β σ} {d : List Char} (p : Pat Char β) :
    SkipsBefore G H d (· ∈ Chars.unicodeBlanks) p (Api.skipWsLeading p) :=
  skips_before (fun x => (C59_whitespace_control x).1) p

/-- **C65 (`skip_ascii_ws_leading`).** -/
theorem C65_skip_ascii_ws_leading {G : Rules Char β} {H : Handler Char β σ} {d : List Char}
    {G' : Rules UInt8 β} {H' : Handler UInt8 β σ} {d' : List UInt8} (p : Pat Char β) (p' : Pat UInt8 β) :
    SkipsBefore G H d (· ∈ Chars.blanks) p (Api.skipAsciiWsLeading p) ∧
    SkipsBefore G' H' d' (· ∈ Chars.blanks.map byteOf) p' (Api.skipAsciiWsLeading p') :=
  ⟨skips_before C59_ascii_classes.2.2.2.2.2.2.2.2.1.1 p,
   skips_before C59_ascii_classes.2.2.2.2.2.2.2.2.1.2 p'⟩

/-- Every position has such a run. -/
theorem C65_run_exists (W : ι → Prop) [DecidablePred W] (l : List ι) :
    ∃ ws y, l = ws ++ y ∧ Blank W ws y ∧ ∀ ws' y', l = ws' ++ y' → Blank W ws' y' → ws' = ws ∧ y' = y := by
  have hm := maximal_split (fun x => decide (W x)) l
  refine ⟨l.takeWhile (fun x => decide (W x)), l.dropWhile (fun x => decide (W x)),
    List.takeWhile_append_dropWhile.symm,
    ⟨fun x hx => by simpa using hm.1 x hx, fun x b h => by simpa using hm.2 x b h⟩, ?_⟩
  rintro ws y rfl ⟨h1, h2⟩
  have hm' : Maximal (fun x => decide (W x)) ws y :=
    ⟨fun x hx => by simpa using h1 x hx, fun x b h => by simpa using h2 x b h⟩
  have he := maximal_eq hm'
  refine ⟨he.symm, ?_⟩
  have := List.takeWhile_append_dropWhile (p := fun x => decide (W x)) (l := ws ++ y)
  rw [he] at this
  exact (List.append_cancel_left this).symm

/-- The documentation's example, `src/ctor.rs:829-841`. -/
example : Runs (β := Nat) G0 none "file://      ".toList (Api.skipWs (.lit "file://".toList)) 0 (.ok ⟨0, 13⟩ 13) ∧
    Runs (β := Nat) G0 none "      file://".toList (Api.skipWsLeading (.lit "file://".toList)) 0 (.ok ⟨0, 13⟩ 13) :=
  ⟨⟨3, by decide +kernel⟩, ⟨3, by decide +kernel⟩⟩

theorem all_skip {P : Pat ι β → Prop} {u : Neu ι} (h : P (.many0 u .empty)) :
    All G P (.many0 u .empty) := All.intro h fun _ hc => absurd hc id

/-- **C65 (between two patterns).** It does not matter for matching whether the
first pattern skips the white space behind it or the second the white space in
front of it. -/
theorem C65_trailing_is_leading {G : Rules Char β} (p q : Pat Char β) (hp : All G Tidy p) (hq : All G Tidy q) :
    Equiv G (.thn (Api.skipWs p) q) (.thn p (Api.skipWsLeading q)) := by
  have hw : All G Tidy (.many0 Unit.whitespace .empty) := all_skip trivial
  exact ((C45_congruence (C45_delimiters_are_then p _ p).2.1 (Equiv.refl q)).1).trans
    ((C45_then_assoc _ _ _ hp hw hq).trans
      (C45_congruence (Equiv.refl p) (C45_delimiters_are_then _ q p).1.symm).1)

/-- A unit run takes `k` bytes of input that is there, or panics behind the end. -/
theorem many0_cases (u : Neu ι) (d : List ι) (o : Nat) :
    (parseL (β := β) G none d (.many0 u .empty) o = some .panic) ∨
    (∃ k, parseL (β := β) G none d (.many0 u .empty) o = some (.ok ⟨o, k⟩ (o + k)) ∧
      parseL (β := β) G none d (.many0 u .empty) (o + k) = some (.ok ⟨o + k, 0⟩ (o + k))) := by
  by_cases hv : Valid d o
  · obtain ⟨pre, post, rfl, rfl⟩ := hv
    right
    have hm := maximal_split u.isMatch post
    have hp := (runs_skip (G := G) (β := β) (W := fun x => u.isMatch x = true) (fun x => Iff.rfl) (pre := pre)
      (d := pre ++ post) (ws := post.takeWhile u.isMatch) (y := post.dropWhile u.isMatch)
      (by simp [List.takeWhile_append_dropWhile]) ⟨hm.1, fun x b h => by simp [hm.2 x b h]⟩ _).mpr rfl
    have hq := (runs_skip (G := G) (β := β) (W := fun x => u.isMatch x = true) (fun x => Iff.rfl)
      (pre := pre ++ post.takeWhile u.isMatch) (d := pre ++ post) (ws := [])
      (y := post.dropWhile u.isMatch) (by simp [List.takeWhile_append_dropWhile])
      ⟨fun x h => (by cases h), fun x b h => by simp [hm.2 x b h]⟩ _).mpr rfl
    rw [runs_plain, parses_iff] at hp hq
    rw [blen_append] at hq
    exact ⟨_, hp, hq⟩
  · have hd : dropB d o = none := by
      cases h : dropB d o with
      | none => rfl
      | some l => exact absurd (valid_iff_dropB.mpr ⟨l, h⟩) hv
    by_cases hle : o ≤ blen d
    · right
      refine ⟨0, ?_⟩
      have hn : ¬ (Item.strict ι = true ∧ blen d < o) := by omega
      simp [parseL_many0, many0Parse, remK, peek, origAt, hd, hle, caseO, if_neg hn]
    · left
      simp [parseL_many0, many0Parse, remK, hle]

/-- **C65 (twice).** Skipping twice is skipping once. -/
theorem C65_skip_ws_idempotent {G : Rules Char β} (p : Pat Char β) (hp : All G Tidy p) :
    Equiv G (Api.skipWs (Api.skipWs p)) (Api.skipWs p) := by
  have h0 : Equiv G (.thn (.many0 Unit.whitespace .empty) (.many0 Unit.whitespace .empty))
      (.many0 Unit.whitespace .empty) := by
    rw [equiv_iff]
    intro d o
    rw [parseL_thn]
    rcases many0_cases (G := G) (β := β) Unit.whitespace d o with h | ⟨k, h, h'⟩
    · simp [seq2, matL_none, h, caseR]
    · simp [seq2, matL_none, h, h', caseR, addK, addAssign_consec]
  have hw : All G Tidy (.many0 Unit.whitespace .empty) := all_skip trivial
  have hs : ∀ q : Pat Char β, Equiv G (Api.skipWs q) (.thn q (.many0 Unit.whitespace .empty)) :=
    fun q => (C45_delimiters_are_then q _ q).2.1
  exact (hs (Api.skipWs p)).trans (((C45_congruence (hs p) (Equiv.refl _)).1).trans
    ((C45_then_assoc _ _ _ hp hw hw).trans (((C45_congruence (Equiv.refl p) h0).1).trans (hs p).symm)))

end Neure
