import Verif.Utf8Ctor
import Verif.Demo
/-!
# C47: characters and bytes
-/

namespace Neure

set_option linter.unusedSectionVars false
set_option linter.unusedSimpArgs false

open Demo

variable {β β' : Type} {rv : Val β → Val β' → Prop}

/-- **C47.** Comparing the bytes (`str::starts_with`) is comparing the characters. -/
theorem C47_starts_with (l m : List Char) : utf8 l <+: utf8 m ↔ l <+: m := utf8_prefix

/-- **C47.** The byte length is the sum of the widths. -/
theorem C47_length (l : List Char) : blen l = (utf8 l).length := (utf8_length l).symm

/-- Different strings have different bytes. -/
theorem C47_injective (l m : List Char) : utf8 l = utf8 m ↔ l = m :=
  ⟨utf8_inj, fun h => by rw [h]⟩

/-- **C47.** The offsets at which the context can be read are the character
boundaries of the bytes, and what is read there is the byte slice. -/
theorem C47_orig_at (d : List Char) (o : Nat) :
    (∀ rest, origAt d o = .ok rest ↔ strFrom (utf8 d) o = some (utf8 rest)) ∧
    (strFrom (utf8 d) o = none ↔ origAt d o = .err .outOfBound) ∧ origAt d o ≠ .panic := by
  rw [← dropB_utf8]
  unfold origAt
  have : (Item.strict Char && decide (blen d < o)) = false := rfl
  simp only [this, Bool.false_eq_true, if_false]
  cases dropB d o with
  | none => simp
  | some l =>
    simp only [Out.ok.injEq, Option.map_some, Option.some.injEq, ne_eq, reduceCtorEq, not_false_eq_true,
      and_true, iff_self]
    exact fun rest => ⟨fun h => by rw [h], fun h => utf8_inj h⟩

/-- **C47.** The same for sub-slices, which is how matched text is handed out. -/
theorem C47_orig_sub (d : List Char) (o n : Nat) (l : List Char) :
    origSub d o n = .ok l ↔ strSlice (utf8 d) o (o + n) = some (utf8 l) := by
  rw [← origSub_utf8]
  cases origSub d o n with
  | ok r =>
    simp only [Out.ok.injEq, Option.some.injEq]
    exact ⟨fun h => by rw [h], fun h => utf8_inj h⟩
  | err e => simp
  | panic => simp

example : strFrom (utf8 ['é', 'a']) 1 = none ∧ strFrom (utf8 ['é', 'a']) 2 = some [97] := by decide

/-- **C47.** A string literal on a string context does exactly what the literal
made of its bytes does on the byte context: same span, same error, same offset. -/
theorem C47_literal (G : Rules Char β) (G' : Rules UInt8 β) (d l : List Char) (o : Nat) (ho : Valid d o)
    (r : Res Span) :
    Parses G none d (.lit l) o r ↔ Parses G' none (utf8 d) (.lit (utf8 l)) o r := by
  have key : ∀ n, parse G' n none (utf8 d) (.lit (utf8 l)) o = parse G n none d (.lit l) o := by
    intro n
    cases n with
    | zero => rfl
    | succ n => exact lit_sim l ho
  unfold Parses
  simp only [key]

/-! ## Units that agree on bytes and characters -/

/-- An ASCII character and its byte. -/
theorem UnitSim.item (c : Char) (h : c.toNat < 128) : UnitSim false (.item c) (.item (asciiByte c)) where
  ascii x hx := by
    simp only [Neu.isMatch, decide_eq_decide]
    constructor
    · rintro rfl; rfl
    · intro he
      have := congrArg UInt8.toNat he
      simp only [asciiByte, UInt8.toNat_ofNat'] at this
      apply Char.toNat_inj.mp
      omega
  wide x hx := by
    simp only [Neu.isMatch, decide_eq_false_iff_not]
    rintro rfl; omega
  high b hb := by
    simp only [Neu.isMatch, decide_eq_false_iff_not]
    rintro rfl
    simp only [asciiByte, UInt8.toNat_ofNat'] at hb
    omega
  len := by simp [Neu.minLength, size_ascii h]; rfl

/-- A range of ASCII characters, e.g. `'0'..='9'` and `b'0'..=b'9'`. -/
theorem UnitSim.range (r : CRange) (h : ∀ n, 128 ≤ n → r.contains n = false) :
    UnitSim false (.range r) (.range r) where
  ascii x hx := by
    simp only [Neu.isMatch]
    have : Item.key (asciiByte x) = Item.key x := by
      show (UInt8.ofNat x.toNat).toNat = x.toNat
      simp; omega
    rw [this]
  wide x hx := h _ hx
  high b hb := h _ hb
  len := rfl

theorem UnitSim.never : UnitSim false .never .never where
  ascii _ _ := rfl
  wide _ _ := rfl
  high _ _ := rfl
  len := rfl

theorem UnitSim.always : UnitSim true .always .always where
  ascii _ _ := rfl
  wide _ _ := rfl
  high _ _ := rfl
  len := rfl

/-- `!` of an ASCII unit accepts everything beyond ASCII on both sides. -/
theorem UnitSim.not {k : Bool} {u : Neu Char} {v : Neu UInt8} (h : UnitSim k u v) :
    UnitSim (!k) (.not u) (.not v) where
  ascii x hx := by simp only [Neu.isMatch, h.ascii x hx]
  wide x hx := by simp only [Neu.isMatch, h.wide x hx]
  high x hx := by simp only [Neu.isMatch, h.high x hx]
  len := h.len

theorem UnitSim.and {k k' : Bool} {u u' : Neu Char} {v v' : Neu UInt8} (h : UnitSim k u v) (h' : UnitSim k' u' v') :
    UnitSim (k && k') (.and u u') (.and v v') where
  ascii x hx := by simp only [Neu.isMatch, h.ascii x hx, h'.ascii x hx]
  wide x hx := by simp only [Neu.isMatch, h.wide x hx, h'.wide x hx]
  high x hx := by simp only [Neu.isMatch, h.high x hx, h'.high x hx]
  len := by simp only [Neu.minLength, h.len, h'.len]

theorem UnitSim.or {k k' : Bool} {u u' : Neu Char} {v v' : Neu UInt8} (h : UnitSim k u v) (h' : UnitSim k' u' v') :
    UnitSim (k || k') (.or u u') (.or v v') where
  ascii x hx := by simp only [Neu.isMatch, h.ascii x hx, h'.ascii x hx]
  wide x hx := by simp only [Neu.isMatch, h.wide x hx, h'.wide x hx]
  high x hx := by simp only [Neu.isMatch, h.high x hx, h'.high x hx]
  len := by simp only [Neu.minLength, h.len, h'.len]

/-- **C51.** A grammar made of literals, ASCII units and any combinators gives on
a string and on the bytes of that string the same answer: the same span, the same
error and the same offset, from every character boundary, under every policy. -/
theorem C51_str_and_bytes_agree {G : Rules Char β} {G' : Rules UInt8 β'} (hG : RulesSim rv G G')
    {pol : Option (Pat Char β)} {pol' : Option (Pat UInt8 β')} (hpol : PolSim rv pol pol') (hb : BoundPol G pol)
    {p : Pat Char β} {q : Pat UInt8 β'} (h : PatSim rv p q) (hp : All G (Bounded G pol) p) (d : List Char) (o : Nat)
    (ho : Valid d o) (r : Res Span) : Parses G pol d p o r ↔ Parses G' pol' (utf8 d) q o r := by
  unfold Parses
  simp only [parse_sim hG _ pol pol' hpol hb h hp d o ho]

/-- The same for `ctx.try_mat`. -/
theorem C51_try_mat_agrees {G : Rules Char β} {G' : Rules UInt8 β'} (hG : RulesSim rv G G')
    {pol : Option (Pat Char β)} {pol' : Option (Pat UInt8 β')} (hpol : PolSim rv pol pol') (hb : BoundPol G pol)
    {p : Pat Char β} {q : Pat UInt8 β'} (h : PatSim rv p q) (hp : All G (Bounded G pol) p) (d : List Char) (o : Nat)
    (ho : Valid d o) (r : Res Span) : Runs G pol d p o r ↔ Runs G' pol' (utf8 d) q o r := by
  have hb0 : BoundPol G (none : Option (Pat Char β)) := fun _ h => by cases h
  have key : ∀ n, tryMat G' n pol' (utf8 d) q o = tryMat G n pol d p o := by
    intro n
    unfold tryMat matWith
    match pol, pol', hpol with
    | none, none, hpol => exact parse_sim hG n none none hpol hb h hp d o ho
    | some w, some w', hpol =>
      exact caseR_sim (parse_sim hG n none none trivial hb0 hpol (hb w rfl) d o ho)
        (bound_inv G n none hb0 d w o ho (hb w rfl))
        (fun _ o' hs => parse_sim hG n (some w) (some w') hpol hb h hp d o' hs.2.2) (fun _ _ _ => rfl)
  unfold Runs
  simp only [key]

/-- Outside ASCII a single unit does not agree: `!'"'` takes all of `é` on the
string, one byte of it on the bytes. -/
theorem C51_wide_unit_counterexample :
    UnitSim true (.not (.item '"')) (.not (.item 34)) ∧
    Runs (β := Nat) (fun _ => none) none ['é'] (.once (.not (.item '"')) .empty) 0 (.ok ⟨0, 2⟩ 2) ∧
    Runs (β := Nat) (fun _ => none) none (utf8 ['é']) (.once (.not (.item 34)) .empty) 0 (.ok ⟨0, 1⟩ 1) :=
  ⟨(UnitSim.item '"' (by decide)).not, ⟨1, by decide⟩, ⟨1, by decide⟩⟩

/-- A quoted string: a literal quote, a run of anything but quotes (including
characters beyond ASCII), a literal quote. -/
example : PatSim (β := Nat) (β' := Nat) (· = ·) (.enclose (.lit ['"']) (.many0 (.not (.item '"')) .empty) (.lit ['"']))
      (.enclose (.lit [34]) (.many0 (.not (.item 34)) .empty) (.lit [34])) ∧
    Runs (β := Nat) (fun _ => none) none ['"', 'é', '"'] (.enclose (.lit ['"']) (.many0 (.not (.item '"')) .empty) (.lit ['"'])) 0
      (.ok ⟨0, 4⟩ 4) :=
  ⟨.enclose (.lit ['"']) (.many0Wide (UnitSim.item '"' (by decide)).not) (.lit ['"']), ⟨3, by decide⟩⟩

/-! ## Building values -/

variable {σ σ' : Type} {ρ : β → β' → Prop} {τ : σ → σ' → Prop}

/-- **C51 (building).** With handlers that do corresponding things on a string and on its
bytes, and mappers, tags and builders that respect the correspondence, `ctor_handler` on the
string and on its bytes give the same kind of outcome at the same offset with the same error,
corresponding values, and corresponding states of the handlers; the one returns if and only
if the other does. -/
theorem C51_building {G : Rules Char β} {G' : Rules UInt8 β'} (hG : RulesSim (RVal ρ) G G')
    {H : Handler Char β σ} {H' : Handler UInt8 β' σ'} (hH : HandlerSim τ ρ H H')
    {pol : Option (Pat Char β)} {pol' : Option (Pat UInt8 β')} (hpol : PolSim (RVal ρ) pol pol') (hb : BoundPol G pol)
    {p : Pat Char β} {q : Pat UInt8 β'} (h : PatSim (RVal ρ) p q) (hp : All G (Bounded G pol) p) (d : List Char)
    {st : σ} {st' : σ'} (hs : τ st st') (o : Nat) (ho : Valid d o) :
    (∀ r, Constructs G H pol d p st o r →
      ∃ r', Constructs G' H' pol' (utf8 d) q st' o r' ∧ RRes τ (RVal ρ) r r') ∧
    (∀ r', Constructs G' H' pol' (utf8 d) q st' o r' →
      ∃ r, Constructs G H pol d p st o r ∧ RRes τ (RVal ρ) r r') := by
  have key := fun n => con_sim hG hH n hpol hb h hp d st st' o ho hs
  constructor
  · rintro r ⟨n, hr⟩
    have := key n
    rw [hr] at this
    generalize hy : con G' H' n pol' (utf8 d) q st' o = y at this
    cases this with
    | ok _ hv hs => exact ⟨_, ⟨n, hy⟩, .ok _ hv hs⟩
    | err e _ hs => exact ⟨_, ⟨n, hy⟩, .err e _ hs⟩
    | panic => exact ⟨_, ⟨n, hy⟩, .panic⟩
  · rintro r ⟨n, hr⟩
    have := key n
    rw [hr] at this
    generalize hy : con G H n pol d p st o = y at this
    cases this with
    | ok _ hv hs => exact ⟨_, ⟨n, hy⟩, .ok _ hv hs⟩
    | err e _ hs => exact ⟨_, ⟨n, hy⟩, .err e _ hs⟩
    | panic => exact ⟨_, ⟨n, hy⟩, .panic⟩

/-- The value with every text replaced by its bytes, `str::as_bytes`, at every leaf. -/
def asBytes : Val (List Char) → Val (List UInt8)
  | .base t => .base (utf8 t)
  | .pair a b => .pair (asBytes a) (asBytes b)
  | .none => .none
  | .some a => .some (asBytes a)
  | .nil => .nil
  | .cons a l => .cons (asBytes a) (asBytes l)

theorem rval_bytes {v : Val (List Char)} {w : Val (List UInt8)} :
    RVal (fun t b => b = utf8 t) v w ↔ w = asBytes v := by
  constructor
  · intro hv
    induction hv with
    | base hb => rw [hb]; rfl
    | pair _ _ i1 i2 => simp only [asBytes, i1, i2]
    | none => rfl
    | some _ i => simp only [asBytes, i]
    | nil => rfl
    | cons _ _ i1 i2 => simp only [asBytes, i1, i2]
  · rintro rfl
    induction v with
    | base b => exact .base rfl
    | pair _ _ i1 i2 => exact .pair i1 i2
    | none => exact .none
    | some _ i => exact .some i
    | nil => exact .nil
    | cons _ _ i1 i2 => exact .cons i1 i2

theorem asBytes_inj {v w : Val (List Char)} (h : asBytes v = asBytes w) : v = w := by
  induction v generalizing w with
  | base b =>
    cases w <;> simp only [asBytes, Val.base.injEq, reduceCtorEq] at h
    rw [utf8_inj h]
  | pair _ _ i1 i2 =>
    cases w <;> simp only [asBytes, Val.pair.injEq, reduceCtorEq] at h
    rw [i1 h.1, i2 h.2]
  | none => cases w <;> simp only [asBytes, reduceCtorEq] at h; rfl
  | some _ i =>
    cases w <;> simp only [asBytes, Val.some.injEq, reduceCtorEq] at h
    rw [i h]
  | nil => cases w <;> simp only [asBytes, reduceCtorEq] at h; rfl
  | cons _ _ i1 i2 =>
    cases w <;> simp only [asBytes, Val.cons.injEq, reduceCtorEq] at h
    rw [i1 h.1, i2 h.2]

/-- The texts handed out for a span on the string and on the bytes. -/
theorem extract_sim : HandlerSim (σ := σ) (σ' := σ) (· = ·) (fun t b => b = utf8 t) extractH extractH := by
  rintro d o s st _ - hv1 hv2 rfl
  refine ⟨?_, rfl⟩
  have hs : Valid d s.beg := hv1
  simp only [extractH]
  obtain ⟨pre, rest, rfl, hpre⟩ := hv1
  obtain ⟨pre2, rest2, he, hlen⟩ := hv2
  obtain ⟨t, rfl, rfl⟩ : ∃ t, pre2 = pre ++ t ∧ rest = t ++ rest2 := by
    have hle : pre.length ≤ pre2.length := by
      rcases Nat.le_total pre.length pre2.length with h | h
      · exact h
      · obtain ⟨u, hu⟩ := List.prefix_of_prefix_length_le ⟨rest2, he.symm⟩ ⟨rest, rfl⟩ h
        rw [← hu, blen_append] at hpre
        have : blen u = 0 := by omega
        have hu0 : u = [] := by
          cases u with
          | nil => rfl
          | cons x u => have := Item.size_pos x; rw [blen_cons] at *; omega
        rw [← hu, hu0]; simp
    obtain ⟨t, ht⟩ := List.prefix_of_prefix_length_le ⟨rest, rfl⟩ ⟨rest2, he.symm⟩ hle
    refine ⟨t, ht.symm, ?_⟩
    rw [← ht, List.append_assoc] at he
    exact List.append_cancel_left he
  have hl : blen t = s.len := by rw [blen_append] at hlen; omega
  have h1 : origSub (pre ++ (t ++ rest2)) s.beg s.len = .ok t :=
    origSub_ok.mpr ⟨pre, rest2, by simp, hpre, hl⟩
  have h2 : origSub (utf8 (pre ++ (t ++ rest2))) s.beg s.len = .ok (utf8 t) :=
    origSub_ok.mpr ⟨utf8 pre, utf8 rest2, by simp [utf8_append], by rw [blen_utf8, hpre], by rw [blen_utf8, hl]⟩
  rw [h1, h2]
  exact .ok rfl

/-- **C51 (ctor).** `ctor` on the bytes returns exactly the bytes of what `ctor` on the string
returns, piece by piece, and ends at the same offset; it fails with the same errors at the same
offsets, and panics on the same inputs. -/
theorem C51_ctor {G : Rules Char (List Char)} {G' : Rules UInt8 (List UInt8)}
    (hG : RulesSim (fun v w => w = asBytes v) G G')
    {pol : Option (Pat Char (List Char))} {pol' : Option (Pat UInt8 (List UInt8))}
    (hpol : PolSim (fun v w => w = asBytes v) pol pol') (hb : BoundPol G pol)
    {p : Pat Char (List Char)} {q : Pat UInt8 (List UInt8)} (h : PatSim (fun v w => w = asBytes v) p q)
    (hp : All G (Bounded G pol) p) (d : List Char) (st : σ) (o : Nat) (ho : Valid d o) :
    (∀ v st' o', Constructs G extractH pol d p st o (.ok v st' o') ↔
      Constructs G' extractH pol' (utf8 d) q st o (.ok (asBytes v) st' o')) ∧
    (∀ w st' o', Constructs G' extractH pol' (utf8 d) q st o (.ok w st' o') → ∃ v, w = asBytes v) ∧
    (∀ e st' o', Constructs G extractH pol d p st o (.err e st' o') ↔
      Constructs G' extractH pol' (utf8 d) q st o (.err e st' o')) ∧
    (Constructs G extractH pol d p st o .panic ↔ Constructs G' extractH pol' (utf8 d) q st o .panic) := by
  have hrv : (fun (v : Val (List Char)) (w : Val (List UInt8)) => w = asBytes v) =
      RVal (fun t b => b = utf8 t) := by
    funext v w; exact propext rval_bytes.symm
  rw [hrv] at hG hpol h
  obtain ⟨h1, h2⟩ := C51_building hG (extract_sim (σ := σ)) hpol hb h hp d (st := st) rfl o ho
  refine ⟨fun v st' o' => ⟨fun hc => ?_, fun hc => ?_⟩, fun w st' o' hc => ?_,
    fun e st' o' => ⟨fun hc => ?_, fun hc => ?_⟩, fun hc => ?_, fun hc => ?_⟩
  · obtain ⟨r', hc', hr⟩ := h1 _ hc
    cases hr with
    | ok _ hv hs => rw [rval_bytes] at hv; subst hv; subst hs; exact hc'
  · obtain ⟨r', hc', hr⟩ := h2 _ hc
    cases hr with
    | ok _ hv hs => rw [rval_bytes] at hv; rw [asBytes_inj hv]; subst hs; exact hc'
  · obtain ⟨r', hc', hr⟩ := h2 _ hc
    cases hr with
    | ok _ hv hs => exact ⟨_, rval_bytes.mp hv⟩
  · obtain ⟨r', hc', hr⟩ := h1 _ hc
    cases hr with
    | err _ _ hs => subst hs; exact hc'
  · obtain ⟨r', hc', hr⟩ := h2 _ hc
    cases hr with
    | err _ _ hs => subst hs; exact hc'
  · obtain ⟨r', hc', hr⟩ := h1 _ hc
    cases hr; exact hc'
  · obtain ⟨r', hc', hr⟩ := h2 _ hc
    cases hr; exact hc'

theorem rval_eq {v w : Val β} : RVal (· = ·) v w ↔ v = w := by
  constructor
  · intro hv
    induction hv with
    | base hb => rw [hb]
    | pair _ _ i1 i2 => rw [i1, i2]
    | none => rfl
    | some _ i => rw [i]
    | nil => rfl
    | cons _ _ i1 i2 => rw [i1, i2]
  · rintro rfl
    induction v with
    | base b => exact .base rfl
    | pair _ _ i1 i2 => exact .pair i1 i2
    | none => exact .none
    | some _ i => exact .some i
    | nil => exact .nil
    | cons _ _ i1 i2 => exact .cons i1 i2

/-- **C51 (equal values).** Handlers that return the same value on a string and on its bytes
build the same values. -/
theorem C51_same_values {G : Rules Char β} {G' : Rules UInt8 β} (hG : RulesSim (· = ·) G G')
    {H : Handler Char β σ} {H' : Handler UInt8 β σ}
    (hH : ∀ d o s st, Valid d o → Valid d s.beg → Valid d (s.beg + s.len) → H d o s st = H' (utf8 d) o s st)
    {pol : Option (Pat Char β)} {pol' : Option (Pat UInt8 β)} (hpol : PolSim (· = ·) pol pol') (hb : BoundPol G pol)
    {p : Pat Char β} {q : Pat UInt8 β} (h : PatSim (· = ·) p q) (hp : All G (Bounded G pol) p) (d : List Char)
    (st : σ) (o : Nat) (ho : Valid d o) (r : CRes σ (Val β)) :
    Constructs G H pol d p st o r ↔ Constructs G' H' pol' (utf8 d) q st o r := by
  have hrv : (fun (v w : Val β) => v = w) = RVal (· = ·) := by
    funext v w; exact propext rval_eq.symm
  have hH' : HandlerSim (· = ·) (· = ·) H H' := by
    rintro d o s st _ a b c rfl
    rw [hH d o s st a b c]
    refine ⟨?_, rfl⟩
    cases (H' (utf8 d) o s st).1 with
    | ok b => exact .ok rfl
    | err e => exact .err e
    | panic => exact .panic
  have E : ∀ r r' : CRes σ (Val β), RRes (· = ·) (RVal (· = ·)) r r' → r = r' := by
    intro r r' h
    cases h with
    | ok _ hv hs => rw [rval_eq.mp hv, hs]
    | err _ _ hs => rw [hs]
    | panic => rfl
  rw [show ((· = ·) : Val β → Val β → Prop) = RVal (· = ·) from hrv] at hG hpol h
  obtain ⟨h1, h2⟩ := C51_building hG hH' hpol hb h hp d (st := st) rfl o ho
  constructor
  · intro hc
    obtain ⟨r', hc', hr⟩ := h1 _ hc
    rw [E _ _ hr]; exact hc'
  · intro hc
    obtain ⟨r', hc', hr⟩ := h2 _ hc
    rw [← E _ _ hr]; exact hc'

/-- **C51 (ctor_span).** The spans are the same on both sides. -/
theorem C51_ctor_span {G : Rules Char Span} {G' : Rules UInt8 Span} (hG : RulesSim (· = ·) G G')
    {pol : Option (Pat Char Span)} {pol' : Option (Pat UInt8 Span)} (hpol : PolSim (· = ·) pol pol')
    (hb : BoundPol G pol) {p : Pat Char Span} {q : Pat UInt8 Span} (h : PatSim (· = ·) p q)
    (hp : All G (Bounded G pol) p) (d : List Char) (st : σ) (o : Nat) (ho : Valid d o) (r : CRes σ (Val Span)) :
    Constructs G spanH pol d p st o r ↔ Constructs G' spanH pol' (utf8 d) q st o r :=
  C51_same_values (H := spanH) (H' := spanH) hG (fun _ _ _ _ _ _ _ => rfl) hpol hb h hp d st o ho r

section Example

/-- A list of quoted strings, separated by commas, on a string… -/
def quotedS : Pat Char (List Char) :=
  .sep (.enclose (.lit ['"']) (.many0 (.not (.item '"')) .empty) (.lit ['"'])) (.lit [',']) true 1

/-- … and on bytes. -/
def quotedB : Pat UInt8 (List UInt8) :=
  .sep (.enclose (.lit [34]) (.many0 (.not (.item 34)) .empty) (.lit [34])) (.lit [44]) true 1

/-- `"é","a"`: the value of the first string is `é`, and its two bytes on the byte side. -/
example : PatSim (fun v w => w = asBytes v) quotedS quotedB ∧
    Constructs (σ := Unit) (fun _ => none) extractH none ['"', 'é', '"', ',', '"', 'a', '"'] quotedS () 0
      (.ok (.cons (.base ['é']) (.cons (.base ['a']) .nil)) () 8) ∧
    asBytes (.cons (.base ['é']) (.cons (.base ['a']) .nil)) = .cons (.base [195, 169]) (.cons (.base [97]) .nil) :=
  ⟨.sep _ _ (.enclose (.lit ['"']) (.many0Wide (UnitSim.item '"' (by decide)).not) (.lit ['"'])) (.lit [',']),
    ⟨6, by decide⟩, by decide⟩

/-- The hypotheses of `C51_ctor` for it. -/
example : All (fun _ => none) (Bounded (fun _ => none) none) quotedS := by
  refine All.intro trivial fun q hq => ?_
  rcases hq with rfl | rfl
  · refine All.intro trivial fun q hq => ?_
    rcases hq with rfl | rfl | rfl <;> exact All.intro trivial fun _ h => h.elim
  · exact All.intro trivial fun _ h => h.elim

end Example

end Neure
