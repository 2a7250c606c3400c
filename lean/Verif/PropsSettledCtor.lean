import Verif.PropsSettled
import Verif.PropsBlame
/-!
# C88: a terminator settles the values built before it
-/

namespace Neure

set_option linter.unusedSectionVars false
set_option linter.unusedSimpArgs false

open Demo

variable {ι β σ : Type} [Item ι] {G : Rules ι β} {H : Handler ι β σ} {pol : Option (Pat ι β)} {d : List ι}

/-- The handler looks at nothing but the text of the match (and its place and its own state): if
the match lies inside the text, what follows the text does not change its answer. -/
def TextOnly (H : Handler ι β σ) : Prop :=
  ∀ (d x : List ι) (o : Nat) (s : Span) (st : σ) (t : List ι), origSub d s.beg s.len = .ok t →
    H (d ++ x) o s st = H d o s st

/-- The closure of `dyn_then_ctor` looks only at the value, and does not move. -/
def ValueOnly : Pat ι β → Prop
  | .dthen _ f => (∀ d d' o v, f d o v = f d' o v) ∧
      ∀ d o v, match f d o v with
        | .ok _ o' => o' = o
        | .err _ o' => o' = o
        | .panic => True
  | _ => True

theorem stops_bounded {z : ι} {p : Pat ι β} (h : All G (StopsAt G pol z) p) : All G (Bounded G pol) p := by
  intro q hq
  have := h q hq
  cases q <;> first | trivial | exact this.elim | exact this

/-- `stop_inv` for `try_mat`. -/
theorem stop_mat (z : ι) (n : Nat) (hpol : ∀ q, pol = some q → All G (StopsAt G none z) q) (d0 y : List ι) (p : Pat ι β)
    (o : Nat) (ho : Valid d0 o) (hp : All G (StopsAt G pol z) p) (r : Res Span)
    (h : matWith (parse G n) pol (d0 ++ z :: y) p o = some r) :
    matWith (parseS G n) pol (d0 ++ z :: y) p o = some r ∧ InR (Valid d0) r := by
  cases pol with
  | none => exact stop_inv z n none hpol d0 y p o ho hp r h
  | some q =>
    simp only [matWith] at h ⊢
    cases hq : parse G n none (d0 ++ z :: y) q o with
    | none => rw [hq] at h; cases h
    | some v =>
      obtain ⟨h1, h2⟩ := stop_inv z n none (fun _ h => by cases h) d0 y q o ho (hpol q rfl) v hq
      rw [hq] at h; rw [h1]
      cases v with
      | ok s o1 => exact stop_inv z n _ hpol d0 y p o1 h2 hp r h
      | err e o1 => simp only [caseR, Option.some.injEq] at h; subst h; exact ⟨rfl, h2⟩
      | panic => simp only [caseR, Option.some.injEq] at h; subst h; exact ⟨rfl, trivial⟩

/-- Building stays before the terminator. -/
theorem stop_in (z : ι) (n : Nat) (hpol : ∀ q, pol = some q → All G (StopsAt G none z) q) (d0 y : List ι) {p : Pat ι β}
    (hp : All G (StopsAt G pol z) p) (hv : All G ValueOnly p) (st : σ) (o : Nat) (ho : Valid d0 o) :
    Sat (con G H n pol (d0 ++ z :: y) p st o) (InK (Valid d0)) := by
  refine con_inK n (fun q hq => ⟨fun m hm o ho => ?_, ?_⟩) ho
  · have hm : All G (StopsAt G pol z) m := by
      have hq : All G (StopsAt G pol z) q := fun r hr => hp r ((CDesc.desc hq).trans hr)
      cases q <;> simp only [MatchPart] at hm <;> (try subst hm) <;>
        first
          | exact hm.elim
          | exact hq
          | exact hq.child rfl
          | exact hq.child (.inl rfl)
          | exact hq.child (.inr rfl)
          | exact hq.child (.inr (.inl rfl))
          | (rcases hm with rfl | rfl
             · exact hq.child (.inl rfl)
             · exact hq.child (.inr (.inr rfl)))
    exact ⟨fun s o' ⟨k, hk⟩ => (stop_mat z k hpol d0 y m o ho hm _ hk).2,
      fun e o' ⟨k, hk⟩ => (stop_mat z k hpol d0 y m o ho hm _ hk).2⟩
  · have := hv q (CDesc.desc hq)
    cases q <;> try trivial
    rename_i a f
    intro o v ho
    have h := this.2 (d0 ++ z :: y) o v
    revert h
    cases f (d0 ++ z :: y) o v with
    | ok q o' => intro h; cases h; exact ho
    | err e o' => intro h; cases h; exact ho
    | panic => intro _; trivial

theorem stop_con (z : ι) (hH : TextOnly H) (n : Nat) (hpol : ∀ q, pol = some q → All G (StopsAt G none z) q)
    (d0 y : List ι) : ∀ (p : Pat ι β) (st : σ) (o : Nat), Valid d0 o → All G (StopsAt G pol z) p → All G ValueOnly p →
      Le (con G H n pol (d0 ++ z :: y) p st o) (conS G H n pol (d0 ++ z :: y) p st o) := by
  induction n with
  | zero => intro p st o _ _ _; exact Le.none _
  | succ n ih =>
    intro p st o ho hp hv r hr
    have bp : BoundPol G pol := fun q hq => stops_bounded (hpol q hq)
    have vd : Valid (d0 ++ z :: y) o := by
      obtain ⟨a, b, h1, h2⟩ := ho
      exact ⟨a, b ++ z :: y, by rw [h1, List.append_assoc], h2⟩
    have le : ∀ m k o, Valid d0 o → All G (StopsAt G pol z) m → ∀ r, matWith (parse G k) pol (d0 ++ z :: y) m o = some r →
        matWith (parseS G k) pol (d0 ++ z :: y) m o = some r := fun m k o ho hm r h => (stop_mat z k hpol d0 y m o ho hm r h).1
    -- the handler
    have quiet : ∀ m k, All G (StopsAt G pol z) m → ∀ s o1, matWith (parseS G k) pol (d0 ++ z :: y) m o = some (.ok s o1) →
        ∀ x, H (d0 ++ z :: y ++ x) o1 s st = H (d0 ++ z :: y) o1 s st := by
      intro m k hm s o1 hs x
      have hr : Runs G pol (d0 ++ z :: y ++ []) m o (.ok s o1) := C88_more_text m o _ ⟨k, hs⟩ []
      rw [List.append_nil] at hr
      obtain ⟨_, t, ht, _⟩ := (C03_spans_are_valid_slices G pol bp _ m (stops_bounded hm) o vd).1 s o1 hr
      exact hH _ x o1 s st t ht
    have hD : DoneC H (matWith (parseS G n) pol (d0 ++ z :: y)) (matWith (parseS G (n + 1)) pol (d0 ++ z :: y) p o)
        (conS G H n pol (d0 ++ z :: y)) (d0 ++ z :: y) st o p := by
      cases p with
      | pat q => exact quiet q n (hp.child rfl)
      | branch t a b => exact hp.self.elim
      | dthen q f => exact fun v _ o1 _ x => (hv.self).1 _ _ o1 v
      | thn | ifThen | pre | suf | enclose | sepOnce | or | longest | opt | choice | ltm | rep | rep2 | collect | sep | sep2
      | sepCollect | map | cell => trivial
      | _ => exact quiet _ (n + 1) hp
    simp only [conS]
    rw [if_pos hD]
    have := conStep_leK (E := Eq) (R := fun a b => a = b ∧ All G (StopsAt G pol z) a ∧ All G ValueOnly a) (fun _ => rfl)
      (K := fun _ o => Valid d0 o) (H := H)
      (mt := tryMat G n pol (d0 ++ z :: y)) (mt' := matWith (parseS G n) pol (d0 ++ z :: y))
      (leaf := tryMat G (n + 1) pol (d0 ++ z :: y) p o) (leaf' := matWith (parseS G (n + 1)) pol (d0 ++ z :: y) p o)
      (cn := con G H n pol (d0 ++ z :: y)) (cn' := conS G H n pol (d0 ++ z :: y)) n (d0 ++ z :: y)
      (fun a b o hab ho => by
        obtain ⟨rfl, ha, _⟩ := hab
        exact ⟨fun r hr => ⟨r, le a n o ho ha r hr, SameRes.refl (fun _ => rfl) r⟩,
          fun r hr => (stop_mat z n hpol d0 y a o ho ha r hr).2⟩)
      (fun r hr => ⟨r, le p (n + 1) o ho hp r hr, SameRes.refl (fun _ => rfl) r⟩)
      (fun a b st o hab ho => by
        obtain ⟨rfl, ha, hb⟩ := hab
        refine ⟨fun r hr => ⟨r, ih a st o ho ha hb r hr, SameCRes.refl (fun _ => rfl) r⟩, fun r hr => ?_⟩
        have := stop_in z n hpol d0 y ha hb st o ho r hr
        cases r <;> exact this)
      (sameShape_children fun q hq => ⟨rfl, hp.child hq, hv.child hq⟩)
      (by
        have h := hv.self
        have h' := hp.self
        cases p <;> try trivial
        rename_i a f
        intro d o v q o' ho hf
        have := h.2 d o v
        rw [hf] at this
        cases this; exact ho)
      st o ho r hr
    obtain ⟨r', h1, h2⟩ := this
    cases h2 with
    | ok => exact h1
    | err _ _ he => cases he; exact h1
    | panic => exact h1

/-- **C88 (terminator, building).** If the text has an item that no unit of the pattern accepts and
no literal contains, a value built from a position before it is settled: building ends before that
item, and what follows the text changes neither the value nor the handler's state. -/
theorem C88_terminator_construct (z : ι) (hH : TextOnly H) (hpol : ∀ q, pol = some q → All G (StopsAt G none z) q)
    {p : Pat ι β} (hp : All G (StopsAt G pol z) p) (hv : All G ValueOnly p) (before after : List ι) (st : σ) (o : Nat)
    (ho : Valid before o) (r : CRes σ (Val β)) (h : Constructs G H pol (before ++ z :: after) p st o r) :
    SettledC G H pol (before ++ z :: after) p st o r ∧
    (∀ x, Constructs G H pol (before ++ z :: after ++ x) p st o r) ∧
    ∀ v st' o', r = .ok v st' o' → Valid before o' := by
  obtain ⟨n, hn⟩ := h
  have hS : SettledC G H pol (before ++ z :: after) p st o r :=
    ⟨n, stop_con z hH n hpol before after p st o ho hp hv r hn⟩
  refine ⟨hS, fun x => C88_more_text_construct p st o r hS x, fun v st' o' e => ?_⟩
  subst e
  exact stop_in z n hpol before after hp hv st o ho _ hn

/-- **C88 (`ctor`).** The handler of `ctx.ctor`, which extracts the text, is such a handler. -/
theorem C88_extract_text_only : TextOnly (extractH : Handler ι (List ι) σ) :=
  fun _ x _ _ _ _ h => C88_extract h x

-- nested parentheses on a line: what follows the line does not change the value
example : All GP ValueOnly parens :=
  all_parens (by exact trivial) (by exact trivial) (by exact trivial) (by exact trivial) (by exact trivial)
example (x : List Char) :
    Constructs (σ := Unit) G0 extractH none (['a', 'b'] ++ '\n' :: [] ++ x)
      (.thn (.lit ['a']) (.lit ['b'])) () 0 (.ok (.pair (.base ['a']) (.base ['b'])) () 2) :=
  (C88_terminator_construct '\n' C88_extract_text_only (fun _ h => by cases h)
    (All.intro (by exact trivial) (by rintro q (rfl | rfl) <;> exact all_lit (by simp [StopsAt])))
    (All.intro (by exact trivial) (by rintro q (rfl | rfl) <;> exact all_lit (by exact trivial)))
    ['a', 'b'] [] () 0 ⟨[], _, rfl, rfl⟩ _ ⟨5, rfl⟩).2.1 x
-- a closure that answers by the value alone
example (q : Pat Char Nat) : ValueOnly (.dthen q fun _ o v => if v = .base 0 then .err .literal o else .ok (.lit ['a']) o) := by
  refine ⟨fun _ _ _ _ => rfl, fun _ o v => ?_⟩
  by_cases h : v = .base 0
  · simp [h]
  · simp [h]

end Neure
