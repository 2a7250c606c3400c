import Verif.Term
import Verif.CtorTerm
import Verif.PropsCore
import Verif.PropsComb
import Verif.PropsLoop
import Verif.PropsUnit
/-!
# C35: termination of matching
-/

namespace Neure

set_option linter.unusedSectionVars false
set_option linter.unusedSimpArgs false

open Demo

variable {ι β : Type} [Item ι] {G : Rules ι β} {pol : Option (Pat ι β)} {d : List ι}

/-! ## Matching returns -/

/-- **C35 (general form).** If unbounded loops and recursion make progress
(`LoopsEat`, well-founded `First`) and successes move forward, matching returns a
result on every input from every offset. -/
theorem C35_returns (hpol : PolicyReturns G pol) (p : Pat ι β)
    (h : All G (fun q => Forward G pol q ∧ LoopsEat G pol q ∧ Acc (First G pol) q) p)
    (d : List ι) (o : Nat) (ho : o ≤ blen d) :
    (∃ r, Runs G pol d p o r) ∧ (∃ r, Parses G pol d p o r) := by
  have hp := fun o' ho' (hR : blen d - o' ≤ blen d - o) => parseL_total hpol (blen d - o) p h d o' ho' hR
  constructor
  · have := matL_ne hpol ho (Nat.le_refl _) hp
    obtain ⟨r, hr⟩ := Option.ne_none_iff_exists'.mp this
    exact ⟨r, runs_iff.mpr hr⟩
  · obtain ⟨r, hr⟩ := Option.ne_none_iff_exists'.mp (hp o ho (Nat.le_refl _))
    exact ⟨r, parses_iff.mpr hr⟩

theorem forward_of_safe (hpol : SafePol G pol) {p : Pat ι β} (h : All G (Safe G pol) p) :
    Forward G pol p := by
  intro d o s o' ho hr
  have := (C05_forward_and_in_bounds G pol hpol d p h o ho).1 s o' hr
  omega

/-- What a terminating grammar satisfies at every pattern reachable from the top:
`Safe`, unbounded loops over patterns that never match empty, and no left
recursion (`First` is well-founded below it). -/
def Terminates (G : Rules ι β) (pol : Option (Pat ι β)) (p : Pat ι β) : Prop :=
  All G (fun q => Safe G pol q ∧ LoopsEat G pol q ∧ Acc (First G pol) q) p

/-- **C35.** A terminating grammar, on a plain context or under a policy whose
skip pattern is itself terminating, gives on every input and from every offset
either a match or an error: it neither runs forever nor panics. -/
theorem C35_terminates (hpol : ∀ w, pol = some w → Terminates G none w) (p : Pat ι β)
    (h : Terminates G pol p) (d : List ι) (o : Nat) (ho : o ≤ blen d) :
    (∃ s o', Runs G pol d p o (.ok s o')) ∨ (∃ e o', Runs G pol d p o (.err e o')) := by
  have none_ok : SafePol G none := fun _ h => by cases h
  have sp : SafePol G pol := fun w hw => (hpol w hw).mono fun _ h => h.1
  have up : ∀ {pol'} (_ : SafePol G pol') {p : Pat ι β}, Terminates G pol' p →
      All G (fun q => Forward G pol' q ∧ LoopsEat G pol' q ∧ Acc (First G pol') q) p := by
    intro pol' hs p ht q hq
    have hq' : Terminates G pol' q := fun r hr => ht r (hq.trans hr)
    exact ⟨forward_of_safe hs (hq'.mono fun _ h => h.1), hq'.self.2⟩
  have pr : PolicyReturns G pol := by
    intro w hw
    exact ⟨fun d o ho => (C35_returns (fun _ h => by cases h) w (up none_ok (hpol w hw)) d o ho).2,
      forward_of_safe none_ok ((hpol w hw).mono fun _ h => h.1)⟩
  obtain ⟨r, hr⟩ := (C35_returns pr p (up sp h) d o ho).1
  cases r with
  | ok s o' => exact .inl ⟨s, o', hr⟩
  | err e o' => exact .inr ⟨e, o', hr⟩
  | panic => exact absurd hr (C04_no_panic G pol sp d p (h.mono fun _ h => h.1) o ho)

/-! ## A syntactic criterion for "never matches empty" -/

/-- Patterns that consume on every success, read off the pattern and the rules.
(Least fixed point: a rule may not justify itself.) -/
inductive Consuming (G : Rules ι β) : Pat ι β → Prop where
  | lit {l : List ι} : l ≠ [] → Consuming G (.lit l)
  | consume {n : Nat} : 0 < n → Consuming G (.consume n)
  | once {u : Neu ι} {c : Cond ι β} : Consuming G (.once u c)
  | many1 {u : Neu ι} {c : Cond ι β} : Consuming G (.many1 u c)
  | thn1 {a b : Pat ι β} : Consuming G a → Consuming G (.thn a b)
  | thn2 {a b : Pat ι β} : Consuming G b → Consuming G (.thn a b)
  | pre1 {a b : Pat ι β} : Consuming G a → Consuming G (.pre a b)
  | pre2 {a b : Pat ι β} : Consuming G b → Consuming G (.pre a b)
  | suf1 {a b : Pat ι β} : Consuming G a → Consuming G (.suf a b)
  | suf2 {a b : Pat ι β} : Consuming G b → Consuming G (.suf a b)
  | enclose1 {a b c : Pat ι β} : Consuming G a → Consuming G (.enclose a b c)
  | enclose2 {a b c : Pat ι β} : Consuming G b → Consuming G (.enclose a b c)
  | enclose3 {a b c : Pat ι β} : Consuming G c → Consuming G (.enclose a b c)
  | ifThen {a b c : Pat ι β} : Consuming G a → Consuming G (.ifThen a b c)
  | or {a b : Pat ι β} : Consuming G a → Consuming G b → Consuming G (.or a b)
  | choice {e : Error} {items : List (Pat ι β × Option (Val β))} :
      (∀ it ∈ items, Consuming G it.1) → Consuming G (.choice e items)
  | rep {p : Pat ι β} {r : CRange} : Consuming G p → ¬ r.lo.allowsFrom 0 → Consuming G (.rep p r)
  | collect {p : Pat ι β} {m : Nat} : Consuming G p → 0 < m → Consuming G (.collect p m)
  | sep {p s : Pat ι β} {skip : Bool} {m : Nat} : Consuming G p → 0 < m →
      Consuming G (.sep p s skip m)
  | map {p : Pat ι β} {f : Val β → Out (Val β)} : Consuming G p → Consuming G (.map p f)
  | pat {p : Pat ι β} : Consuming G p → Consuming G (.pat p)
  | cell {i : Nat} {p : Pat ι β} : G i = some p → Consuming G p → Consuming G (.cell i)

/-- Enough to look past the policy's skipping. -/
theorem eats_of_parses (hpol : SafePol G pol) {p : Pat ι β}
    (h : ∀ d o s o', o ≤ blen d → Parses G pol d p o (.ok s o') → o < o') : Eats G pol p := by
  intro d o s o' ho hr
  rw [runs_iff] at hr
  cases pol with
  | none => rw [matL_none] at hr; exact h d o s o' ho (parses_iff.mpr hr)
  | some w =>
    rw [matL_some, caseR_some] at hr
    rcases hr with ⟨_, h1⟩ | ⟨s1, o1, h1, h2⟩ | ⟨_, _, _, h1⟩
    · cases h1
    · have := forward_of_safe (fun _ h => by cases h) (hpol w rfl) d o s1 o1 ho (runs_iff.mpr h1)
      have := h d o1 s o' this.2 (parses_iff.mpr h2)
      omega
    · cases h1

theorem Applied.forward {p : Pat ι β} (hf : Forward G pol p) {k t o t' o'} (ho : o ≤ blen d)
    (h : Applied G pol d p k t o t' o') : o ≤ o' ∧ o' ≤ blen d := by
  induction h with
  | zero => exact ⟨Nat.le_refl _, ho⟩
  | succ hr _ _ ih =>
    have h1 := hf _ _ _ _ ho hr
    have h2 := ih h1.2
    omega

theorem AppliedSep.forward {p s : Pat ι β} (hf : Forward G pol p) (hs : Forward G pol s) {k t o t' o'}
    (ho : o ≤ blen d) (h : AppliedSep G pol d p s k t o t' o') : o ≤ o' ∧ o' ≤ blen d := by
  induction h with
  | zero => exact ⟨Nat.le_refl _, ho⟩
  | succ hr hr' _ _ _ ih =>
    have h1 := hf _ _ _ _ ho hr
    have h2 := hs _ _ _ _ h1.2 hr'
    have h3 := ih h2.2
    omega

theorem matL_cell {i : Nat} {p : Pat ι β} (h : G i = some p) (o : Nat) :
    matL G pol d (.cell i) o = matL G pol d p o := by
  cases pol with
  | none => rw [matL_none, matL_none, parseL_cell, h]
  | some w =>
    rw [matL_some, matL_some]
    congr 1
    funext _ o'
    rw [parseL_cell, h]

/-- **C35 (criterion).** A `Consuming` pattern never matches the empty string. -/
theorem C35_consuming_eats (hpol : SafePol G pol) (p : Pat ι β) (hs : All G (Safe G pol) p)
    (hc : Consuming G p) : Eats G pol p := by
  have fw : ∀ {q}, All G (Safe G pol) q → Forward G pol q := fun h => forward_of_safe hpol h
  have s2 : ∀ (q a b : Pat ι β), (∀ d o, InSequence2 G pol d q a b o) → Forward G pol a → Forward G pol b →
      Eats G pol a ∨ Eats G pol b → Eats G pol q := by
    intro q a b hq ha hb h
    refine eats_of_parses hpol fun d o s o' ho hr => ?_
    obtain ⟨s1, o1, s2, h1, h2, _⟩ := ((hq d o).1 s o').mp hr
    have f1 := ha d o _ o1 ho h1
    have f2 := hb d o1 _ o' f1.2 h2
    rcases h with h | h
    · have := h d o _ o1 ho h1; omega
    · have := h d o1 _ o' f1.2 h2; omega
  have s3 : ∀ (a b c : Pat ι β), Forward G pol a → Forward G pol b → Forward G pol c →
      Eats G pol a ∨ Eats G pol b ∨ Eats G pol c → Eats G pol (.enclose a b c) := by
    intro a b c ha hb hc h
    refine eats_of_parses hpol fun d o s o' ho hr => ?_
    obtain ⟨s1, o1, s2, o2, s3, s12, h1, h2, h3, _⟩ := ((C08_enclose a b c o).1 s o').mp hr
    have f1 := ha d o _ o1 ho h1
    have f2 := hb d o1 _ o2 f1.2 h2
    have f3 := hc d o2 _ o' f2.2 h3
    rcases h with h | h | h
    · have := h d o _ o1 ho h1; omega
    · have := h d o1 _ o2 f1.2 h2; omega
    · have := h d o2 _ o' f2.2 h3; omega
  have pos : ∀ {l : List ι}, l ≠ [] → 0 < blen l := by
    intro l hl
    cases l with
    | nil => exact absurd rfl hl
    | cons x l => have := Item.size_pos x; simp only [blen_cons]; omega
  induction hc with
  | lit hl =>
    refine eats_of_parses hpol fun d o s o' ho hr => ?_
    rw [parses_iff, parseL_lit] at hr
    have := pos hl
    unfold litParse remK at hr
    rw [if_pos ho] at hr
    dsimp only at hr
    split at hr
    · rw [caseO_some] at hr
      rcases hr with ⟨_, h1⟩ | ⟨a, _, h1⟩ | ⟨_, _, h1⟩
      · cases h1
      · split at h1
        · simp only [newSpanInc, Option.some.injEq, Res.ok.injEq] at h1; omega
        · cases h1
      · cases h1
    · cases hr
  | @consume n hn =>
    refine eats_of_parses hpol fun d o s o' ho hr => ?_
    have := ((C12_consume (β := β) (G := G) (pol := pol) n o ho _).1.mp hr)
    split at this
    · cases this; omega
    · cases this
  | @once u c =>
    refine eats_of_parses hpol fun d o s o' ho hr => ?_
    have hv : Valid d o := by
      have hr := hr
      rw [parses_iff, parseL_once] at hr
      unfold onceParse at hr
      rw [caseO_some] at hr
      rcases hr with ⟨_, h1⟩ | ⟨a, ha, _⟩ | ⟨_, _, h1⟩
      · cases h1
      · obtain ⟨l, hl, _⟩ := peek_ok.mp (Option.some.inj ha)
        exact valid_iff_dropB.mpr ⟨l, hl⟩
      · cases h1
    obtain ⟨pre, rest, rfl, rfl⟩ := hv
    obtain ⟨x, tl, _, _, _, h4⟩ := ((C23_once u c pre rest rfl).1 s o').mp hr
    have := Item.size_pos x
    omega
  | @many1 u c =>
    refine eats_of_parses hpol fun d o s o' ho hr => ?_
    have hv : Valid d o := by
      have hr := hr
      rw [parses_iff, parseL_many1] at hr
      unfold many1Parse at hr
      rw [caseO_some] at hr
      rcases hr with ⟨_, h1⟩ | ⟨a, ha, _⟩ | ⟨_, _, h1⟩
      · cases h1
      · obtain ⟨l, hl, _⟩ := peek_ok.mp (Option.some.inj ha)
        exact valid_iff_dropB.mpr ⟨l, hl⟩
      · cases h1
    obtain ⟨run, rest, _, h2, _, h4⟩ := ((C23_many1 u c o hv).1 s o').mp hr
    have := pos h2
    omega
  | @thn1 a b _ ih =>
    have ca := hs.child (q := a) (.inl rfl); have cb := hs.child (q := b) (.inr rfl)
    exact s2 _ a b (fun d o => C08_then a b o) (fw ca) (fw cb) (.inl (ih ca))
  | @thn2 a b _ ih =>
    have ca := hs.child (q := a) (.inl rfl); have cb := hs.child (q := b) (.inr rfl)
    exact s2 _ a b (fun d o => C08_then a b o) (fw ca) (fw cb) (.inr (ih cb))
  | @pre1 a b _ ih =>
    have ca := hs.child (q := a) (.inl rfl); have cb := hs.child (q := b) (.inr rfl)
    exact s2 _ a b (fun d o => C08_prefix a b o) (fw ca) (fw cb) (.inl (ih ca))
  | @pre2 a b _ ih =>
    have ca := hs.child (q := a) (.inl rfl); have cb := hs.child (q := b) (.inr rfl)
    exact s2 _ a b (fun d o => C08_prefix a b o) (fw ca) (fw cb) (.inr (ih cb))
  | @suf1 a b _ ih =>
    have ca := hs.child (q := a) (.inl rfl); have cb := hs.child (q := b) (.inr rfl)
    exact s2 _ a b (fun d o => C08_suffix a b o) (fw ca) (fw cb) (.inl (ih ca))
  | @suf2 a b _ ih =>
    have ca := hs.child (q := a) (.inl rfl); have cb := hs.child (q := b) (.inr rfl)
    exact s2 _ a b (fun d o => C08_suffix a b o) (fw ca) (fw cb) (.inr (ih cb))
  | @enclose1 a b c _ ih =>
    have ca := hs.child (q := a) (.inl rfl); have cb := hs.child (q := b) (.inr (.inl rfl))
    have cc := hs.child (q := c) (.inr (.inr rfl))
    exact s3 a b c (fw ca) (fw cb) (fw cc) (.inl (ih ca))
  | @enclose2 a b c _ ih =>
    have ca := hs.child (q := a) (.inl rfl); have cb := hs.child (q := b) (.inr (.inl rfl))
    have cc := hs.child (q := c) (.inr (.inr rfl))
    exact s3 a b c (fw ca) (fw cb) (fw cc) (.inr (.inl (ih cb)))
  | @enclose3 a b c _ ih =>
    have ca := hs.child (q := a) (.inl rfl); have cb := hs.child (q := b) (.inr (.inl rfl))
    have cc := hs.child (q := c) (.inr (.inr rfl))
    exact s3 a b c (fw ca) (fw cb) (fw cc) (.inr (.inr (ih cc)))
  | @ifThen a b c _ ih =>
    have ca := hs.child (q := a) (.inl rfl); have cb := hs.child (q := b) (.inr (.inl rfl))
    have cc := hs.child (q := c) (.inr (.inr rfl))
    refine eats_of_parses hpol fun d o s o' ho hr => ?_
    rcases ((C09_if_then a b c o).1 s o').mp hr with ⟨h1, _⟩ | ⟨s1, o1, s2, o2, s3, s12, h1, h2, h3, _⟩
    · exact ih ca d o s o' ho h1
    · have f1 := fw ca d o _ o1 ho h1
      have f2 := fw cb d o1 _ o2 f1.2 h2
      have f3 := fw cc d o2 _ o' f2.2 h3
      have := ih ca d o _ o1 ho h1
      omega
  | @or a b _ _ iha ihb =>
    refine eats_of_parses hpol fun d o s o' ho hr => ?_
    rcases ((C06_or a b o).1 s o').mp hr with h | ⟨_, h⟩
    · exact iha (hs.child (.inl rfl)) d o s o' ho h
    · exact ihb (hs.child (.inr rfl)) d o s o' ho h
  | @choice e items _ ih =>
    refine eats_of_parses hpol fun d o s o' ho hr => ?_
    obtain ⟨before, it, after, hi, _, h⟩ := ((C06_choice e items o).1 s o').mp hr
    have hit : it ∈ items := by rw [hi]; simp
    exact ih it hit (hs.child ⟨it, hit, rfl⟩) d o s o' ho h
  | @rep p r _ hr0 ih =>
    refine eats_of_parses hpol fun d o s o' ho hr => ?_
    have cp := hs.child (q := p) rfl
    obtain ⟨k, o1, ha, hk, _, hend⟩ := ((C13_repeat p r o).1 s o').mp hr
    cases ha with
    | zero => exact absurd hk hr0
    | succ h1 _ h2 =>
      have f1 := fw cp _ _ _ _ ho h1
      have f2 := h2.forward (fw cp) f1.2
      have := ih cp _ _ _ _ ho h1
      rcases hend with ⟨_, rfl⟩ | ⟨_, e, he⟩
      · omega
      · have := (C05_forward_and_in_bounds G pol hpol d p cp o1 f2.2).2 e o' he
        omega
  | @collect p m _ hm ih =>
    refine eats_of_parses hpol fun d o s o' ho hr => ?_
    have cp := hs.child (q := p) rfl
    obtain ⟨k, o1, ha, hk, e, he⟩ := ((C15_collect p m o).1 s o').mp hr
    cases ha with
    | zero => omega
    | succ h1 _ h2 =>
      have f1 := fw cp _ _ _ _ ho h1
      have f2 := h2.forward (fw cp) f1.2
      have := ih cp _ _ _ _ ho h1
      have := (C05_forward_and_in_bounds G pol hpol d p cp o1 f2.2).2 e o' he
      omega
  | @sep p s skip m _ hm ih =>
    refine eats_of_parses hpol fun d o sp o' ho hr => ?_
    have cp := hs.child (q := p) (.inl rfl)
    have cs := hs.child (q := s) (.inr rfl)
    obtain ⟨k, t, x, ⟨o1, ha, hx⟩, hend⟩ := ((C16_sep p s skip m o).1 sp o').mp hr
    have err : ∀ q, All G (Safe G pol) q → ∀ o1 e o2, o1 ≤ blen d → Runs G pol d q o1 (.err e o2) → o1 ≤ o2 :=
      fun q hq o1 e o2 h1 h2 => ((C05_forward_and_in_bounds G pol hpol d q hq o1 h1).2 e o2 h2).1
    have last : o1 ≤ blen d → o1 ≤ o' ∧ (x ≠ none → o1 < o') := by
      intro ho1
      cases x with
      | none =>
        obtain ⟨e, he⟩ := hx
        exact ⟨err p cp o1 e o' ho1 he, fun h => absurd rfl h⟩
      | some y =>
        obtain ⟨o2, e, h1, h2⟩ := hx
        have f1 := fw cp _ _ _ _ ho1 h1
        have := ih cp _ _ _ _ ho1 h1
        have := err s cs o2 e o' f1.2 h2
        exact ⟨by omega, fun _ => by omega⟩
    cases ha with
    | zero =>
      have hl := last ho
      rcases hend with ⟨_, h, _⟩ | ⟨y, rfl, _⟩ | ⟨h, _, h', _⟩
      · omega
      · exact hl.2 (by simp)
      · exact hl.2 h
    | succ h1 h1' _ _ h2 =>
      have f1 := fw cp _ _ _ _ ho h1
      have f2 := fw cs _ _ _ _ f1.2 h1'
      have f3 := h2.forward (fw cp) (fw cs) f2.2
      have hl := last f3.2
      have := ih cp _ _ _ _ ho h1
      omega
  | @map p f _ ih =>
    refine eats_of_parses hpol fun d o s o' ho hr => ?_
    rw [parses_iff, parseL_map, ← runs_iff] at hr
    exact ih (hs.child rfl) d o s o' ho hr
  | @pat p _ ih =>
    refine eats_of_parses hpol fun d o s o' ho hr => ?_
    rw [parses_iff, parseL_pat, ← runs_iff] at hr
    exact ih (hs.child rfl) d o s o' ho hr
  | @cell i p hG _ ih =>
    intro d o s o' ho hr
    rw [runs_iff, matL_cell hG, ← runs_iff] at hr
    exact ih (hs.child hG) d o s o' ho hr

/-! ## The hypotheses can be met: nested parentheses, with and without skipping -/

theorem all_parens_from {P : Pat Char Nat → Prop} (h1 : P parens) (h2 : P (.lit ['(']))
    (h3 : P (.rep (.cell 0) ⟨.unb, .unb⟩)) (h4 : P (.lit [')'])) (h5 : P (.cell 0))
    {q : Pat Char Nat} (hq : InParens q) : All GP P q := by
  refine All.coind InParens hq ?_ inParens_closed
  rintro q (rfl | rfl | rfl | rfl | rfl) <;> assumption

theorem parens_terminates (pol : Option (Pat Char Nat)) (hpol : SafePol GP pol) :
    Terminates GP pol parens := by
  have safe : ∀ {q}, InParens q → All GP (Safe GP pol) q := fun hq =>
    all_parens_from trivial trivial trivial trivial trivial hq
  have hc : Consuming GP parens := .enclose1 (.lit (by simp))
  have e1 : Eats GP pol (.lit ['(']) :=
    C35_consuming_eats hpol _ (safe (.inr (.inl rfl))) (.lit (by simp))
  have e2 : Eats GP pol (.cell 0) :=
    C35_consuming_eats hpol _ (safe (.inr (.inr (.inr (.inr rfl))))) (.cell rfl hc)
  have a1 : ∀ l, Acc (First GP pol) (.lit l) := fun l => ⟨_, fun q h => absurd h id⟩
  have a2 : Acc (First GP pol) parens := ⟨_, fun q h => by
    rcases h with rfl | ⟨h, _⟩
    · exact a1 _
    · exact absurd e1 h⟩
  have a3 : Acc (First GP pol) (.cell 0) := ⟨_, fun q h => by
    have : some parens = some q := h
    cases this; exact a2⟩
  exact all_parens ⟨trivial, trivial, a2⟩ ⟨trivial, trivial, a1 _⟩
    ⟨trivial, .inr e2, ⟨_, fun q h => by have : q = .cell 0 := h; rw [this]; exact a3⟩⟩
    ⟨trivial, trivial, a1 _⟩ ⟨trivial, trivial, a3⟩

theorem spaces_terminates : Terminates GP none spaces :=
  all_spaces ⟨trivial, trivial, ⟨_, fun q h => absurd h id⟩⟩

/-- On every string, parentheses matching ends with a match or an error. -/
example (d : List Char) :
    (∃ s o', Runs GP none d parens 0 (.ok s o')) ∨ (∃ e o', Runs GP none d parens 0 (.err e o')) :=
  C35_terminates (fun _ h => by cases h) _ (parens_terminates none fun _ h => by cases h) d 0 (by omega)

/-- The same when spaces are skipped before every step. -/
example (d : List Char) :
    (∃ s o', Runs GP (some spaces) d parens 0 (.ok s o')) ∨
    (∃ e o', Runs GP (some spaces) d parens 0 (.err e o')) :=
  C35_terminates (fun w h => by cases h; exact spaces_terminates) _
    (parens_terminates _ fun w h => by cases h; exact all_spaces trivial) d 0 (by omega)

/-! ## When it does not return -/

/-- A repetition that reaches an empty match goes round forever. -/
theorem repL_stuck {q : Pat ι β} {fin : Nat → Span → Nat → Option (Res Span)} {more : Nat → Bool}
    (hm : ∀ c, more c = true) {k : Nat} {t0 t s : Span} {o0 o : Nat}
    (ha : Applied G pol d q k t0 o0 t o) (hq : Runs G pol d q o (.ok s o)) (hs : Hull t s t)
    (cnt : Nat) : repL (matL G pol d) q more fin cnt t0 o0 = none := by
  have stay : ∀ {k t1 o1}, Applied G pol d q k t o t1 o1 → t1 = t ∧ o1 = o := by
    intro k
    induction k with
    | zero => intro t1 o1 h; cases h; exact ⟨rfl, rfl⟩
    | succ k ih =>
      intro t1 o1 h
      cases h with
      | succ h1 h2 h3 =>
        cases h1.unique hq
        cases h2.unique hs
        exact ih h3
  induction ha generalizing cnt with
  | zero t o =>
    cases h : repL (matL G pol d) q more fin cnt t o with
    | none => rfl
    | some r =>
      obtain ⟨k, t', o1, ha, _, ⟨h1, _⟩ | ⟨_, ⟨e, o2, h2, _⟩ | ⟨_, h2 | ⟨s', o2, h2, h3⟩⟩⟩⟩ :=
        (repL_iff q more fin cnt t o r).mp h
      · rw [hm] at h1; cases h1
      · obtain ⟨rfl, rfl⟩ := stay ha
        cases hq.unique h2
      · obtain ⟨rfl, rfl⟩ := stay ha
        cases hq.unique h2
      · obtain ⟨rfl, rfl⟩ := stay ha
        cases hq.unique h2
        exact absurd hs (h3 _)
  | succ h1 h2 h3 ih =>
    rw [repL_eq, if_pos (hm _), runs_iff.mp h1]
    simp only [caseR, addK, hull_iff.mp h2]
    exact ih hq hs _ stay

/-- **C35 (why the hypothesis is needed).** If after some number of rounds the
repeated pattern matches without moving, `repeat(lo..)` and `collect` never return:
no result, not even an error or a panic. -/
theorem C35_empty_loop_diverges_counterexample (q : Pat ι β) (lo : Bound) (min k : Nat) (o o1 : Nat)
    (t s : Span) (ha : Applied G pol d q k ⟨o, 0⟩ o t o1) (hq : Runs G pol d q o1 (.ok s o1))
    (hs : Hull t s t) (r : Res Span) :
    ¬ Parses G pol d (.rep q ⟨lo, .unb⟩) o r ∧ ¬ Parses G pol d (.collect q min) o r := by
  simp only [parses_iff, parseL_rep, parseL_collect]
  rw [repL_stuck (fun c => by simp [CRange.more]) ha hq hs, repL_stuck (fun c => rfl) ha hq hs]
  simp

/-- `'a'.opt().repeat(0..)` on `"ab"`: one round matches `a`, the second matches
nothing, and so does every later one. -/
example (r : Res Span) :
    ¬ Parses (β := Nat) G0 none ['a', 'b'] (.rep (.opt (.lit ['a'])) ⟨.incl 0, .unb⟩) 0 r :=
  (C35_empty_loop_diverges_counterexample (G := G0) (pol := none) (d := ['a', 'b'])
    (.opt (.lit ['a'])) (.incl 0) 0 1 0 1 ⟨0, 1⟩ ⟨1, 0⟩
    (.succ (s := ⟨0, 1⟩) (t1 := ⟨0, 1⟩) (o1 := 1) ⟨3, by decide⟩ (by decide) (.zero _ _))
    ⟨3, by decide⟩ (by decide) r).1

/-- The same for a separated list whose element and separator both match empty
at some point (`src/ctor/sep.rs`). -/
theorem C35_empty_sep_diverges_counterexample (q x : Pat ι β) (skip : Bool) (min : Nat) (o : Nat)
    (hq : Runs G pol d q o (.ok ⟨o, 0⟩ o)) (hx : Runs G pol d x o (.ok ⟨o, 0⟩ o)) (r : Res Span) :
    ¬ Parses G pol d (.sep q x skip min) o r := by
  have hh : Hull ⟨o, 0⟩ ⟨o, 0⟩ ⟨o, 0⟩ := by simp [Hull]
  have stay : ∀ {k t1 o1}, AppliedSep G pol d q x k ⟨o, 0⟩ o t1 o1 → t1 = ⟨o, 0⟩ ∧ o1 = o := by
    intro k
    induction k with
    | zero => intro t1 o1 h; cases h; exact ⟨rfl, rfl⟩
    | succ k ih =>
      intro t1 o1 h
      cases h with
      | succ h1 h2 h3 h4 h5 =>
        cases h1.unique hq
        cases h2.unique hx
        cases h3.unique hh
        cases h4.unique hh
        exact ih h5
  rw [parses_iff, parseL_sep, sepL_iff]
  rintro ⟨k, t', o1, ha, _, h⟩
  obtain ⟨rfl, rfl⟩ := stay ha
  rcases h with ⟨h1, _⟩ | ⟨_, ⟨e, o2, h2, _⟩ | ⟨sp, o2, e, o3, h2, h3, _⟩ | ⟨_, h2 | ⟨sp, o2, h2, h3⟩⟩⟩
  · cases h1
  · cases hq.unique h2
  · cases hq.unique h2
    cases hx.unique h3
  · cases hq.unique h2
  · cases hq.unique h2
    rcases h3 with h3 | ⟨ss, o3, h3, h4⟩
    · cases hx.unique h3
    · cases hx.unique h3
      exact h4 _ _ hh hh

example : Runs (β := Nat) G0 none ['b'] (.opt (.lit ['a'])) 0 (.ok ⟨0, 0⟩ 0) ∧
    Runs (β := Nat) G0 none ['b'] spaces 0 (.ok ⟨0, 0⟩ 0) := ⟨⟨3, by decide⟩, ⟨3, by decide⟩⟩

/-- **C35 (left recursion).** A rule that calls itself before consuming anything
never returns, on any input. -/
theorem C35_left_recursion_counterexample (i : Nat) (b : Pat ι β) (hG : G i = some (.thn (.cell i) b))
    (d : List ι) (o : Nat) (r : Res Span) : ¬ Runs G none d (.cell i) o r := by
  rintro ⟨n, hn⟩
  have key : ∀ n, parse G n none d (.cell i) o = none ∧ parse G n none d (.thn (.cell i) b) o = none := by
    intro n
    induction n with
    | zero => exact ⟨rfl, rfl⟩
    | succ n ih =>
      constructor
      · simp only [parse, step, hG, ih.2]
      · simp only [parse, step, matWith, ih.1, caseR]
  simp only [tryMat, matWith, (key n).1] at hn
  cases hn

/-! ## Constructing values -/

section Construct

variable {σ : Type} {H : Handler ι β σ}

theorem movesForward_of_safe (hpol : SafePol G pol) {m : Pat ι β} (h : All G (Safe G pol) m)
    (d : List ι) : MovesForward G pol d m := by
  intro o ho
  obtain ⟨h1, h2⟩ := C05_forward_and_in_bounds G pol hpol d m h o ho
  exact ⟨fun s o' hr => by have := h1 s o' hr; omega, h2⟩

/-- **C05 (constructing).** `construct` with any handler never moves backwards and
never out of bounds, on success and on failure, if the delimiters it matches are
`Safe` and the closures of `dyn_then_ctor` do not move backwards. -/
theorem C05_construct_forward (hpol : SafePol G pol) (p : Pat ι β)
    (h : CAll G (fun q => (∀ m, MatchPart m q → All G (Safe G pol) m) ∧ DynForward d q) p)
    (st : σ) (o : Nat) (ho : o ≤ blen d) :
    (∀ v st' o', Constructs G H pol d p st o (.ok v st' o') → o ≤ o' ∧ o' ≤ blen d) ∧
    (∀ e st' o', Constructs G H pol d p st o (.err e st' o') → o ≤ o' ∧ o' ≤ blen d) := by
  have h' : CAll G (CForward G pol d) p := h.mono fun q hq =>
    ⟨fun m hm => movesForward_of_safe hpol (hq.1 m hm) d, hq.2⟩
  exact ⟨fun v st' o' ⟨n, hn⟩ => con_post n h' st o ho _ hn,
    fun e st' o' ⟨n, hn⟩ => con_post n h' st o ho _ hn⟩

/-- **C35 (constructing).** `construct` returns on every input, with any handler,
if the delimiters it matches terminate, unbounded loops make progress and there is
no left recursion. -/
theorem C35_construct_returns (hpol : ∀ w, pol = some w → Terminates G none w) (p : Pat ι β)
    (h : CAll G (fun q => (∀ m, MatchPart m q → Terminates G pol m) ∧ DynForward d q ∧
      CLoopsEat G H pol d q ∧ Acc (CFirst G H pol d) q) p)
    (st : σ) (o : Nat) (ho : o ≤ blen d) : ∃ r, Constructs G H pol d p st o r := by
  have sp : SafePol G pol := fun w hw => (hpol w hw).mono fun _ h => h.1
  have := conL_total (H := H) (d := d) (blen d - o) p (h.mono fun q hq => by
    refine ⟨⟨fun m hm => movesForward_of_safe sp ((hq.1 m hm).mono fun _ h => h.1) d, hq.2.1⟩,
      fun m hm o ho => ?_, hq.2.2.1, hq.2.2.2⟩
    rcases C35_terminates hpol m (hq.1 m hm) d o ho with ⟨s, o', h⟩ | ⟨e, o', h⟩
    · exact ⟨_, h⟩
    · exact ⟨_, h⟩) st o ho (Nat.le_refl _)
  obtain ⟨r, hr⟩ := Option.ne_none_iff_exists'.mp this
  exact ⟨r, constructs_iff.mpr hr⟩

/-- Constructing `parens` (its values are nested lists): the only constructed
patterns are `parens`, the loop and the cell. -/
theorem call_parens {P : Pat Char Nat → Prop} (h1 : P parens)
    (h2 : P (.rep (.cell 0) ⟨.unb, .unb⟩)) (h3 : P (.cell 0)) : CAll GP P parens := by
  intro q hq
  have : q = parens ∨ q = .rep (.cell 0) ⟨.unb, .unb⟩ ∨ q = .cell 0 := by
    induction hq with
    | refl => exact .inl rfl
    | step _ hc ih =>
      rcases ih with rfl | rfl | rfl
      · exact .inr (.inl hc)
      · exact .inr (.inr hc)
      · have : some parens = some _ := hc
        cases this; exact .inl rfl
  rcases this with rfl | rfl | rfl <;> assumption

example (H : Handler Char Nat Unit) (d : List Char) : ∃ r, Constructs GP H none d parens () 0 r := by
  have fw : CAll GP (CForward GP none d) parens := by
    refine call_parens ⟨?_, trivial⟩ ⟨fun m hm => hm.elim, trivial⟩ ⟨fun m hm => hm.elim, trivial⟩
    rintro m (rfl | rfl) <;> exact movesForward_of_safe (fun _ h => by cases h) (all_lit trivial) d
  have e1 : EatsIn GP none d (.lit ['(']) := fun o s o' ho hr =>
    C35_consuming_eats (fun _ h => by cases h) _ (all_lit trivial) (.lit (by simp)) d o s o' ho hr
  -- constructing the cell consumes at least the opening parenthesis
  have e2 : CEats GP H none d (.cell 0) := by
    intro o st v st' o' ho hr
    rw [constructs_iff, conL_cell] at hr
    have hr : conL GP H none d parens st o = some (.ok v st' o') := hr
    unfold parens at hr
    rw [conL_enclose] at hr
    simp only [caseM_some, caseC_some] at hr
    rcases hr with ⟨_, h⟩ | ⟨s1, o1, h1, hr⟩ | ⟨_, _, _, h⟩
    · cases h
    · rcases hr with ⟨_, h⟩ | ⟨v2, st2, o2, h2, hr⟩ | ⟨_, _, _, _, h⟩
      · cases h
      · rcases hr with ⟨_, h⟩ | ⟨s3, o3, h3, hr⟩ | ⟨_, _, _, h⟩
        · cases h
        · have a := e1 o s1 o1 ho (runs_iff.mpr h1)
          have b := (fw.self.1 _ (.inl rfl) o ho).1 s1 o1 (runs_iff.mpr h1)
          obtain ⟨n, hn⟩ := constructs_iff.mpr h2
          have c := con_post n (fw.child rfl) st o1 b.2 _ hn
          have e := (fw.self.1 _ (.inr rfl) o2 c.2).1 s3 o3 (runs_iff.mpr h3)
          cases hr
          have := c.1
          omega
        · cases h
      · cases h
    · cases h
  have a2 : Acc (CFirst GP H none d) parens := ⟨_, fun q h => absurd e1 h.1⟩
  have a3 : Acc (CFirst GP H none d) (.cell 0) := ⟨_, fun q h => by
    have : some parens = some q := h
    cases this; exact a2⟩
  refine C35_construct_returns (fun _ h => by cases h) _ (call_parens ⟨?_, trivial, trivial, a2⟩
    ⟨fun m hm => hm.elim, trivial, .inr e2, ⟨_, fun q h => by have : q = .cell 0 := h; rw [this]; exact a3⟩⟩
    ⟨fun m hm => hm.elim, trivial, trivial, a3⟩) () 0 (by omega)
  rintro m (rfl | rfl) <;> exact all_lit ⟨trivial, trivial, ⟨_, fun q h => absurd h id⟩⟩

/-- Constructing `collect` / `repeat(lo..)` over something that can always be
constructed without consuming never returns either. -/
theorem C35_empty_construct_loop_counterexample (q : Pat ι β) (lo : Bound) (min : Nat) (o : Nat)
    (hq : ∀ st, ∃ v st', Constructs G H pol d q st o (.ok v st' o)) (st : σ) (r : CRes σ (Val β)) :
    ¬ Constructs G H pol d (.collect q min) st o r ∧
    ¬ Constructs G H pol d (.rep q ⟨lo, .unb⟩) st o r := by
  have key : ∀ (more : Nat → Bool) (fin : Nat → List (Val β) → σ → Nat → Option (CRes σ (Val β))),
      (∀ c, more c = true) → ∀ n cnt vals st,
      conRep (conL G H pol d) q more (fun _ => true) fin n cnt vals st o = none := by
    intro more fin hm n
    induction n with
    | zero => intros; rfl
    | succ n ih =>
      intro cnt vals st
      obtain ⟨v, st', h⟩ := hq st
      simp only [conRep, if_pos (hm _), constructs_iff.mp h, caseC, if_true]
      exact ih _ _ _
  have none_ : ∀ (more : Nat → Bool) (fin : Nat → List (Val β) → σ → Nat → Option (CRes σ (Val β))),
      (∀ c, more c = true) → ∀ cnt vals st,
      conRepL (conL G H pol d) q more (fun _ => true) fin cnt vals st o ≠ some r := by
    intro more fin hm cnt vals st h
    obtain ⟨n, hn⟩ := (lim_eq_some (approx_conRep (cn := fun _ => conL G H pol d)
      (fun _ _ _ => approx_const _) q more (fun _ => true) fin cnt vals st o).1 _).mp h
    rw [key more fin hm] at hn
    cases hn
  rw [constructs_iff, constructs_iff, conL_collect, conL_rep]
  exact ⟨none_ _ _ (fun _ => rfl) _ _ _, none_ _ _ (fun c => by simp [CRange.more]) _ _ _⟩

example (st : Unit) : ∃ v st', Constructs (β := Span) G0 spanH none ['b'] (.opt (.lit ['a'])) st 0
    (.ok v st' 0) := ⟨.none, (), 3, rfl⟩

end Construct

end Neure
