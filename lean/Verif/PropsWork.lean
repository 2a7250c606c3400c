import Verif.WorkBound
import Verif.CtorEats
import Verif.PropsTerm
/-!
# C78: how many calls

The crate backtracks and remembers nothing: what was parsed before a failure is
parsed again.  What a user relies on is that this does not blow up for the patterns
they write: without recursion the number of calls is bounded by a polynomial in the
length of the text whose degree is the number of nested loops.  With recursion it
can be exponential.
-/

namespace Neure

set_option linter.unusedSectionVars false
set_option linter.unusedSimpArgs false

open Demo

variable {ι β σ : Type} [Item ι] {G : Rules ι β} {H : Handler ι β σ} {pol : Option (Pat ι β)}
  {d : List ι}

/-! ## Counting changes nothing -/

/-- **C78 (counting changes nothing).** The counted run gives the results of `ctx.try_mat`,
and every run has a count. -/
theorem C78_counting (p : Pat ι β) (o : Nat) :
    (∀ s o', Runs G pol d p o (.ok s o') ↔ ∃ c, RunsWork G pol d p o (.ok s) o' c) ∧
    (∀ e o', Runs G pol d p o (.err e o') ↔ ∃ c, RunsWork G pol d p o (.error e) o' c) := by
  have key : ∀ n, RRel (fun (b : Unit) (a : Unit × Nat) => a.1 = b) (liftR (tryMat G n pol d p) () o)
      (workMat G n pol d p ((), 0) o) := fun n => by
    have := rel_mat (work_add (σ := Unit) G n) pol d p () ((), 0) o rfl
    rwa [impMat_parse] at this
  refine ⟨fun s o' => ⟨fun ⟨n, hn⟩ => ?_, fun ⟨c, n, hn⟩ => (workMat_run hn).2⟩,
    fun e o' => ⟨fun ⟨n, hn⟩ => ?_, fun ⟨c, n, hn⟩ => (workMat_run hn).2⟩⟩
  · have h := key n
    simp only [liftR, hn] at h
    obtain ⟨⟨⟨⟩, c⟩, h, -⟩ := h
    exact ⟨c, n, h⟩
  · have h := key n
    simp only [liftR, hn] at h
    obtain ⟨⟨⟨⟩, c⟩, h, -⟩ := h
    exact ⟨c, n, h⟩

/-- **C78 (one count).** A run has one result and one count. -/
theorem C78_one_count {p : Pat ι β} {o : Nat} {r r' : Except Error Span} {o1 o2 c c' : Nat}
    (h : RunsWork G pol d p o r o1 c) (h' : RunsWork G pol d p o r' o2 c') : r = r' ∧ o1 = o2 ∧ c = c' := by
  obtain ⟨n, hn⟩ := h
  obtain ⟨m, hm⟩ := h'
  have k1 := rel_mat (work_mono (σ := Unit) G 0 (Nat.le_max_left n m)) pol d p ((), 0) ((), 0) o rfl
  have k2 := rel_mat (work_mono (σ := Unit) G 0 (Nat.le_max_right n m)) pol d p ((), 0) ((), 0) o rfl
  rw [show impMat (workParse G n) pol d p ((), 0) o = _ from hn] at k1
  rw [show impMat (workParse G m) pol d p ((), 0) o = _ from hm] at k2
  obtain ⟨t, h1, rfl⟩ := k1
  obtain ⟨t', h2, rfl⟩ := k2
  rw [h1] at h2
  simp only [Option.some.injEq, MRes.done.injEq, Prod.mk.injEq, Nat.add_zero] at h2
  exact ⟨h2.1, h2.2.2, h2.2.1.2⟩

/-- **C78 (counting changes nothing, building).** -/
theorem C78_counting_building (p : Pat ι β) (st : σ) (o : Nat) :
    (∀ v st' o', Constructs G H pol d p st o (.ok v st' o') ↔
      ∃ c, ConstructsWork G H pol d p st o (.ok v) st' o' c) ∧
    (∀ e st' o', Constructs G H pol d p st o (.err e st' o') ↔
      ∃ c, ConstructsWork G H pol d p st o (.error e) st' o' c) := by
  have key : ∀ n, RRel (fun (b : σ) (a : σ × Nat) => a.1 = b) (liftC (con G H n pol d p) st o)
      (workCon G H n pol d p (st, 0) o) := fun n => by
    have := workCon_add G H n pol d p st (st, 0) o rfl
    rwa [imp_con] at this
  refine ⟨fun s st' o' => ⟨fun ⟨n, hn⟩ => ?_, fun ⟨c, n, hn⟩ => workCon_run hn⟩,
    fun e st' o' => ⟨fun ⟨n, hn⟩ => ?_, fun ⟨c, n, hn⟩ => workCon_run hn⟩⟩
  · have h := key n
    simp only [liftC, hn] at h
    obtain ⟨⟨s1, c⟩, h, h'⟩ := h
    simp only at h'; subst h'
    exact ⟨c, n, h⟩
  · have h := key n
    simp only [liftC, hn] at h
    obtain ⟨⟨s1, c⟩, h, h'⟩ := h
    simp only at h'; subst h'
    exact ⟨c, n, h⟩

/-- **C78 (one count, building).** -/
theorem C78_one_count_building {p : Pat ι β} {st st1 st2 : σ} {o : Nat} {r r' : Except Error (Val β)} {o1 o2 c c' : Nat}
    (h : ConstructsWork G H pol d p st o r st1 o1 c) (h' : ConstructsWork G H pol d p st o r' st2 o2 c') :
    r = r' ∧ st1 = st2 ∧ o1 = o2 ∧ c = c' := by
  obtain ⟨n, hn⟩ := h
  obtain ⟨m, hm⟩ := h'
  have k1 := workCon_mono G H 0 (Nat.le_max_left n m) pol d p (st, 0) (st, 0) o rfl
  have k2 := workCon_mono G H 0 (Nat.le_max_right n m) pol d p (st, 0) (st, 0) o rfl
  rw [hn] at k1
  rw [hm] at k2
  obtain ⟨t, h1, rfl⟩ := k1
  obtain ⟨t', h2, rfl⟩ := k2
  rw [h1] at h2
  simp only [Option.some.injEq, MRes.done.injEq, Prod.mk.injEq, Nat.add_zero] at h2
  exact ⟨h2.1, h2.2.1.1, h2.2.2, h2.2.1.2⟩

/-! ## The bound read off the pattern -/

theorem policyCost_of {L e : Nat} (h : SkipAtMost G pol L e) : PolicyCost G pol L e := by
  intro q hq
  obtain ⟨h1, eats, h2, h3⟩ := h q hq
  refine ⟨h1.self.1, fun σ n d hL s o ho => ?_⟩
  exact parse_cost (σ := σ) (pol := none) (e := 0) (fun _ h => by cases h) h2 h3 h1 n d hL s o ho

/-- **C78 (calls).** On a text of at most `L` bytes, from every offset, matching makes at most
as many calls as `CallsAtMost` reads off the pattern, plus one skip, whatever the outcome. -/
theorem C78_calls {eats : Pat ι β → Prop} {e L w : Nat} {p : Pat ι β} (hpol : SkipAtMost G pol L e)
    (he : ∀ q, eats q → ∀ d, EatsIn G pol d q) (hp : All G (StaysIn G pol) p) (h : CallsAtMost G eats e L p w)
    (hL : blen d ≤ L) {o : Nat} (ho : o ≤ blen d) {r : Except Error Span} {o' c : Nat}
    (hr : RunsWork G pol d p o r o' c) : c ≤ e + w := by
  obtain ⟨n, hn⟩ := hr
  have hc := policyCost_of hpol
  simpa using mat_cost hc hL (parse_cost hc he h hp n d hL) ((), 0) o ho r _ o' hn

/-- **C78 (calls, building).** -/
theorem C78_calls_building {eats : Pat ι β → Prop} {e L w : Nat} {p : Pat ι β} (hpol : SkipAtMost G pol L e)
    (he : ∀ q, eats q → ∀ d, EatsIn G pol d q) (hL : blen d ≤ L) (hc : ∀ q, eats q → CEats G H pol d q)
    (hp : CAll G (fun q => (∀ m, MatchPart m q → All G (StaysIn G pol) m) ∧ DynForward d q) p)
    (h : CallsAtMost G eats e L p w) {st : σ} {o : Nat} (ho : o ≤ blen d) {r : Except Error (Val β)} {st' : σ} {o' c : Nat}
    (hr : ConstructsWork G H pol d p st o r st' o' c) : c ≤ w := by
  obtain ⟨n, hn⟩ := hr
  simpa using con_cost (policyCost_of hpol) he hL hc h hp n (st, 0) o ho r _ o' hn

/-- What is safe stays inside the text. -/
theorem staysIn_of_safe (hpol : SafePol G pol) {p : Pat ι β} (h : All G (Safe G pol) p) : All G (StaysIn G pol) p := by
  intro q hq
  have hs : All G (Safe G pol) q := fun r hr => h r (hq.trans hr)
  refine ⟨movesForward_of_safe hpol hs, ?_⟩
  have := hs.self
  cases q <;> try trivial
  intro d o s q' o' ho hf
  have := this d o s ho
  rw [hf] at this
  exact this.2

/-- Patterns that are safe and consume. -/
def SafelyEats (G : Rules ι β) (pol : Option (Pat ι β)) (q : Pat ι β) : Prop :=
  Consuming G q ∧ All G (Safe G pol) q

/-- **C78 (calls, safe patterns).** The same with conditions that are read off the pattern. -/
theorem C78_calls_safe {e L w : Nat} {p : Pat ι β} (hpol : SafePol G pol)
    (hskip : ∀ q, pol = some q → CallsAtMost G (SafelyEats G none) 0 L q e) (hp : All G (Safe G pol) p)
    (h : CallsAtMost G (SafelyEats G pol) e L p w) (hL : blen d ≤ L) {o : Nat} (ho : o ≤ blen d)
    {r : Except Error Span} {o' c : Nat} (hr : RunsWork G pol d p o r o' c) : c ≤ e + w := by
  have np : SafePol G none := fun q h => by cases h
  refine C78_calls (fun q hq => ⟨staysIn_of_safe np (hpol q hq), _, ?_, hskip q hq⟩) ?_ (staysIn_of_safe hpol hp) h hL ho hr
  · exact fun q hq d o s o' ho hr => C35_consuming_eats np q hq.2 hq.1 d o s o' ho hr
  · exact fun q hq d o s o' ho hr => C35_consuming_eats hpol q hq.2 hq.1 d o s o' ho hr

/-- **C35 (criterion, building).** Whenever a value has been built for a `Consuming` pattern,
something has been consumed, with any handler. -/
theorem C35_consuming_builds (hpol : SafePol G pol) (p : Pat ι β)
    (hs : CAll G (fun q => (∀ m, MatchPart m q → All G (Safe G pol) m) ∧ DynForward d q) p) (hc : Consuming G p) :
    CEats G H pol d p := consuming_ceats hpol hs hc

/-- Every `'(' … ')'` built by the recursive grammar consumes, whatever the handler. -/
example (H : Handler Char Nat Unit) (d : List Char) : CEats GP H none d (.cell 0) := by
  refine C35_consuming_builds (fun _ h => by cases h) _ ?_
    (.cell (p := parens) rfl (.enclose1 (.lit (by simp))))
  have : CAll GP (fun q => (∀ m, MatchPart m q → All GP (Safe GP none) m) ∧ DynForward d q) parens := by
    refine call_parens ⟨?_, trivial⟩ ⟨fun m hm => hm.elim, trivial⟩ ⟨fun m hm => hm.elim, trivial⟩
    rintro m (rfl | rfl) <;> exact all_lit trivial
  exact CAll.intro ⟨fun m hm => hm.elim, trivial⟩ fun q (hq : some parens = some q) => by cases hq; exact this

/-- **C78 (calls, building, safe patterns).** -/
theorem C78_calls_building_safe {e L w : Nat} {p : Pat ι β} (hpol : SafePol G pol)
    (hskip : ∀ q, pol = some q → CallsAtMost G (SafelyEats G none) 0 L q e)
    (hp : CAll G (fun q => (∀ m, MatchPart m q → All G (Safe G pol) m) ∧ DynForward d q) p)
    (h : CallsAtMost G (fun q => SafelyEats G pol q ∧
      CAll G (fun q => (∀ m, MatchPart m q → All G (Safe G pol) m) ∧ DynForward d q) q) e L p w)
    (hL : blen d ≤ L) {st : σ} {o : Nat} (ho : o ≤ blen d) {r : Except Error (Val β)} {st' : σ} {o' c : Nat}
    (hr : ConstructsWork G H pol d p st o r st' o' c) : c ≤ w := by
  have np : SafePol G none := fun q h => by cases h
  refine C78_calls_building (fun q hq => ⟨staysIn_of_safe np (hpol q hq), _, ?_, hskip q hq⟩) ?_ hL ?_ ?_ h ho hr
  · exact fun q hq d o s o' ho hr => C35_consuming_eats np q hq.2 hq.1 d o s o' ho hr
  · exact fun q hq d o s o' ho hr => C35_consuming_eats hpol q hq.1.2 hq.1.1 d o s o' ho hr
  · exact fun q hq => C35_consuming_builds hpol q hq.2 hq.1.1
  · exact hp.mono fun q hq => ⟨fun m hm => staysIn_of_safe hpol (hq.1 m hm), hq.2⟩

/-! ## Loops in loops -/

section Poly
variable {e : Nat}

theorem poly_le {e A X : Nat} (hX : 1 ≤ X) : e + A * X ≤ (e + A) * X := by
  rw [Nat.add_mul]
  have : e * 1 ≤ e * X := Nat.mul_le_mul_left _ hX
  omega

theorem poly_one {w A X : Nat} (hX : 1 ≤ X) (h : w ≤ A * X) : 1 + w ≤ (1 + A) * X := by
  rw [Nat.add_mul]; omega

theorem poly_two {e A B X : Nat} (hX : 1 ≤ X) :
    1 + (e + A * X) + (e + B * X) ≤ (1 + (e + A) + (e + B)) * X := by
  have h1 := poly_le (e := e) (A := A) hX
  have h2 := poly_le (e := e) (A := B) hX
  rw [Nat.add_mul, Nat.add_mul]; omega

theorem poly_three {e A B C X : Nat} (hX : 1 ≤ X) :
    1 + (e + A * X) + (e + B * X) + (e + C * X) ≤ (1 + (e + A) + (e + B) + (e + C)) * X := by
  have h1 := poly_two (e := e) (A := A) (B := B) hX
  have h2 := poly_le (e := e) (A := C) hX
  rw [Nat.add_mul]; omega

theorem poly_times {n w A X : Nat} (hX : 1 ≤ X) (h : w ≤ A * X) : 1 + n * w ≤ (1 + n * A) * X := by
  refine poly_one hX ?_
  rw [Nat.mul_assoc]
  exact Nat.mul_le_mul_left _ h

theorem poly_loop {L k m w A : Nat} (hm : m ≤ 2 * (L + 1)) (h : w ≤ A * (L + 1) ^ k) :
    1 + m * w ≤ (1 + 2 * A) * (L + 1) ^ (k + 1) := by
  refine poly_one (Nat.pow_pos (by omega)) ?_
  calc m * w ≤ 2 * (L + 1) * (A * (L + 1) ^ k) := Nat.mul_le_mul hm h
    _ = 2 * A * (L + 1) ^ (k + 1) := by
      rw [Nat.pow_succ]; simp only [Nat.mul_assoc, Nat.mul_left_comm, Nat.mul_comm]

theorem choose_bound {T : Type} {P : T → Nat → Prop} (hm : ∀ t A B, P t A → A ≤ B → P t B) :
    ∀ (l : List T), (∀ t ∈ l, ∃ A, P t A) → ∃ A, ∀ t ∈ l, P t A
  | [], _ => ⟨0, fun _ h => by cases h⟩
  | t :: l, h => by
    obtain ⟨A, hA⟩ := h t (by simp)
    obtain ⟨B, hB⟩ := choose_bound hm l fun t ht => h t (List.mem_cons_of_mem _ ht)
    refine ⟨A + B, fun u hu => ?_⟩
    rcases List.mem_cons.mp hu with rfl | hu
    · exact hm _ _ _ hA (by omega)
    · exact hm _ _ _ (hB u hu) (by omega)

/-- **C78 (degree).** Without recursion the bound is a polynomial in the length of the text; its
degree is the number of nested loops. -/
theorem C78_polynomial {eats : Pat ι β → Prop} {p : Pat ι β} {k : Nat} (h : LoopsNest G eats p k) (e : Nat) :
    ∃ A, ∀ L, CallsAtMost G eats e L p (A * (L + 1) ^ k) := by
  have one : ∀ L k, 1 ≤ (L + 1) ^ k := fun L k => Nat.pow_pos (by omega)
  have up : ∀ {L w p k}, CallsAtMost G eats e L p w → CallsAtMost G eats e L p (w * (L + 1) ^ k) := fun {L w p k} h =>
    h.mono (by have := Nat.mul_le_mul_left w (one L k); omega)
  induction h with
  | @mono p k k' _ hk ih =>
    obtain ⟨A, hA⟩ := ih
    exact ⟨A, fun L => (hA L).mono (Nat.mul_le_mul_left _ (Nat.pow_le_pow_right (by omega) hk))⟩
  | plain hp => exact ⟨e + 2, fun L => up (.plain hp)⟩
  | plainUnit hc hn => exact ⟨e + 2, fun L => up (.plainUnit hc hn)⟩
  | @unit p q k hc _ ih =>
    obtain ⟨A, hA⟩ := ih
    refine ⟨e + 1 + (1 + 2 * (e + A)), fun L => (CallsAtMost.unit hc fun r hr => by cases hr; exact hA L).mono ?_⟩
    have h1 := poly_loop (m := L + 2) (L := L) (k := k) (by omega) (poly_le (e := e) (A := A) (one L k))
    have h2 := Nat.mul_le_mul_left (e + 1) (one L (k + 1))
    rw [Nat.add_mul (e + 1)]; omega
  | @assert q v k _ ih =>
    obtain ⟨A, hA⟩ := ih
    refine ⟨e + 1 + (1 + (e + A)), fun L => (CallsAtMost.assert (hA L)).mono ?_⟩
    have h1 := poly_one (one L k) (poly_le (e := e) (A := A) (one L k))
    have h2 := Nat.mul_le_mul_left (e + 1) (one L k)
    rw [Nat.add_mul (e + 1)]; omega
  | thn _ _ ih1 ih2 =>
    obtain ⟨A, hA⟩ := ih1
    obtain ⟨B, hB⟩ := ih2
    exact ⟨_, fun L => (CallsAtMost.thn (hA L) (hB L)).mono (poly_two (one L _))⟩
  | pre _ _ ih1 ih2 =>
    obtain ⟨A, hA⟩ := ih1
    obtain ⟨B, hB⟩ := ih2
    exact ⟨_, fun L => (CallsAtMost.pre (hA L) (hB L)).mono (poly_two (one L _))⟩
  | suf _ _ ih1 ih2 =>
    obtain ⟨A, hA⟩ := ih1
    obtain ⟨B, hB⟩ := ih2
    exact ⟨_, fun L => (CallsAtMost.suf (hA L) (hB L)).mono (poly_two (one L _))⟩
  | or _ _ ih1 ih2 =>
    obtain ⟨A, hA⟩ := ih1
    obtain ⟨B, hB⟩ := ih2
    exact ⟨_, fun L => (CallsAtMost.or (hA L) (hB L)).mono (poly_two (one L _))⟩
  | longest _ _ ih1 ih2 =>
    obtain ⟨A, hA⟩ := ih1
    obtain ⟨B, hB⟩ := ih2
    exact ⟨_, fun L => (CallsAtMost.longest (hA L) (hB L)).mono (poly_two (one L _))⟩
  | branch _ _ ih1 ih2 =>
    obtain ⟨A, hA⟩ := ih1
    obtain ⟨B, hB⟩ := ih2
    exact ⟨_, fun L => (CallsAtMost.branch (hA L) (hB L)).mono (poly_two (one L _))⟩
  | ifThen _ _ _ ih1 ih2 ih3 =>
    obtain ⟨A, hA⟩ := ih1
    obtain ⟨B, hB⟩ := ih2
    obtain ⟨C, hC⟩ := ih3
    exact ⟨_, fun L => (CallsAtMost.ifThen (hA L) (hB L) (hC L)).mono (poly_three (one L _))⟩
  | enclose _ _ _ ih1 ih2 ih3 =>
    obtain ⟨A, hA⟩ := ih1
    obtain ⟨B, hB⟩ := ih2
    obtain ⟨C, hC⟩ := ih3
    exact ⟨_, fun L => (CallsAtMost.enclose (hA L) (hB L) (hC L)).mono (poly_three (one L _))⟩
  | sepOnce _ _ _ ih1 ih2 ih3 =>
    obtain ⟨A, hA⟩ := ih1
    obtain ⟨B, hB⟩ := ih2
    obtain ⟨C, hC⟩ := ih3
    exact ⟨_, fun L => (CallsAtMost.sepOnce (hA L) (hB L) (hC L)).mono (poly_three (one L _))⟩
  | opt _ ih =>
    obtain ⟨A, hA⟩ := ih
    exact ⟨_, fun L => (CallsAtMost.opt (hA L)).mono (poly_one (one L _) (poly_le (one L _)))⟩
  | map _ ih =>
    obtain ⟨A, hA⟩ := ih
    exact ⟨_, fun L => (CallsAtMost.map (hA L)).mono (poly_one (one L _) (poly_le (one L _)))⟩
  | pat _ ih =>
    obtain ⟨A, hA⟩ := ih
    exact ⟨_, fun L => (CallsAtMost.pat (hA L)).mono (poly_one (one L _) (poly_le (one L _)))⟩
  | @choice err items k _ ih =>
    obtain ⟨A, hA⟩ := choose_bound (P := fun (it : Pat ι β × Option (Val β)) A => ∀ L, CallsAtMost G eats e L it.1 (A * (L + 1) ^ k))
      (fun t A B h hAB L => (h L).mono (Nat.mul_le_mul_right _ hAB)) items ih
    exact ⟨_, fun L => (CallsAtMost.choice fun it hit => hA it hit L).mono (poly_times (one L _) (poly_le (one L _)))⟩
  | @ltm err items k _ ih =>
    obtain ⟨A, hA⟩ := choose_bound (P := fun (it : Pat ι β × Option (Val β)) A => ∀ L, CallsAtMost G eats e L it.1 (A * (L + 1) ^ k))
      (fun t A B h hAB L => (h L).mono (Nat.mul_le_mul_right _ hAB)) items ih
    exact ⟨_, fun L => (CallsAtMost.ltm fun it hit => hA it hit L).mono (poly_times (one L _) (poly_le (one L _)))⟩
  | repMost hr _ ih =>
    obtain ⟨A, hA⟩ := ih
    exact ⟨_, fun L => (CallsAtMost.repMost hr (hA L)).mono (poly_times (one L _) (poly_le (one L _)))⟩
  | rep2 _ ih =>
    obtain ⟨A, hA⟩ := ih
    exact ⟨_, fun L => (CallsAtMost.rep2 (hA L)).mono (poly_times (one L _) (poly_le (one L _)))⟩
  | rep hq _ ih =>
    obtain ⟨A, hA⟩ := ih
    exact ⟨_, fun L => (CallsAtMost.rep hq (hA L)).mono (poly_loop (by omega) (poly_le (one L _)))⟩
  | collect hq _ ih =>
    obtain ⟨A, hA⟩ := ih
    exact ⟨_, fun L => (CallsAtMost.collect hq (hA L)).mono (poly_loop (by omega) (poly_le (one L _)))⟩
  | sep hq _ _ ih1 ih2 =>
    obtain ⟨A, hA⟩ := ih1
    obtain ⟨B, hB⟩ := ih2
    refine ⟨_, fun L => (CallsAtMost.sep hq (hA L) (hB L)).mono (poly_loop (A := e + A + (e + B)) (by omega) ?_)⟩
    rw [Nat.add_mul]; exact Nat.add_le_add (poly_le (one L _)) (poly_le (one L _))
  | sepCollect hq _ _ ih1 ih2 =>
    obtain ⟨A, hA⟩ := ih1
    obtain ⟨B, hB⟩ := ih2
    refine ⟨_, fun L => (CallsAtMost.sepCollect hq (hA L) (hB L)).mono (poly_loop (A := e + A + (e + B)) (by omega) ?_)⟩
    rw [Nat.add_mul]; exact Nat.add_le_add (poly_le (one L _)) (poly_le (one L _))
  | sep2 _ _ ih1 ih2 =>
    obtain ⟨A, hA⟩ := ih1
    obtain ⟨B, hB⟩ := ih2
    refine ⟨_, fun L => (CallsAtMost.sep2 (hA L) (hB L)).mono (poly_times (A := e + A + (e + B)) (one L _) ?_)⟩
    rw [Nat.add_mul]; exact Nat.add_le_add (poly_le (one L _)) (poly_le (one L _))
  | cell hi _ ih =>
    obtain ⟨A, hA⟩ := ih
    exact ⟨_, fun L => (CallsAtMost.cell hi (hA L)).mono (poly_one (one L _) (Nat.le_refl _))⟩
  | unset hi => exact ⟨1, fun L => up (.unset hi)⟩

/-- **C78 (polynomially many calls).** A safe pattern without recursion, in which `k` loops are
nested, makes at most `A * (n + 1) ^ k` calls on a text of `n` bytes, with one `A` for all texts
and offsets.  In particular, a pattern without loops makes at most `A` calls, whatever the text. -/
theorem C78_polynomial_calls {e k : Nat} {p : Pat ι β} (hpol : SafePol G pol)
    (hskip : ∀ q, pol = some q → ∀ L, CallsAtMost G (SafelyEats G none) 0 L q e) (hp : All G (Safe G pol) p)
    (h : LoopsNest G (SafelyEats G pol) p k) :
    ∃ A, ∀ (d : List ι) o r o' c, o ≤ blen d → RunsWork G pol d p o r o' c → c ≤ A * (blen d + 1) ^ k := by
  obtain ⟨A, hA⟩ := C78_polynomial h e
  refine ⟨e + A, fun d o r o' c ho hr => ?_⟩
  have := C78_calls_safe hpol (fun q hq => hskip q hq (blen d)) hp (hA (blen d)) (Nat.le_refl _) ho hr
  exact Nat.le_trans this (poly_le (Nat.pow_pos (by omega)))

end Poly

/-! ## A list of names under a policy -/

/-- `letter.many1().sep(",")`. -/
def Demo.names : Pat Char Nat := .sep (.many1 (.range ⟨.incl 97, .incl 122⟩) .empty) (.lit [',']) true 1

theorem names_safe : All (G0 (β := Nat)) (Safe G0 (some spaces)) Demo.names := by
  refine All.intro trivial fun q hq => ?_
  rcases hq with rfl | rfl
  · exact All.intro trivial fun _ hc => absurd hc id
  · exact all_lit trivial

theorem spaces_safe : SafePol (G0 (β := Nat)) (some spaces) := fun q hq => by
  cases hq; exact all_spaces trivial

/-- At most twelve calls per byte and fifteen more, on every text. -/
example (d : List Char) (o : Nat) (ho : o ≤ blen d) {r : Except Error Span} {o' c : Nat}
    (hr : RunsWork G0 (some spaces) d Demo.names o r o' c) : c ≤ 12 * blen d + 15 := by
  have := C78_calls_safe (G := G0) (e := 2) (w := 1 + (blen d + 1) * (2 + (2 + 2) + (2 + (2 + 2)))) spaces_safe
    (fun q hq => by cases hq; exact .plainUnit rfl fun _ => id) names_safe
    (.sep (.inl ⟨.many1, All.intro trivial fun _ hc => absurd hc id⟩) (.plainUnit rfl fun _ => id) (.plain trivial))
    (Nat.le_refl _) ho hr
  omega

/-- `"ab , c"`: two names and one separator, ten calls. -/
example : RunsWork (G0 (β := Nat)) (some spaces) "ab , c".toList Demo.names 0 (.ok ⟨0, 6⟩) 6 10 :=
  ⟨10, rfl⟩

/-- Building the list of names, with any handler: as many. -/
example (H : Handler Char Nat σ) (d : List Char) (st : σ) (o : Nat) (ho : o ≤ blen d) {r : Except Error (Val Nat)} {st' : σ}
    {o' c : Nat} (hr : ConstructsWork G0 H (some spaces) d Demo.names st o r st' o' c) : c ≤ 12 * blen d + 13 := by
  have leaf : All (G0 (β := Nat)) (Safe G0 (some spaces)) (.many1 (.range ⟨.incl 97, .incl 122⟩) .empty) :=
    All.intro trivial fun _ hc => absurd hc id
  have cleaf : CAll (G0 (β := Nat)) (fun q => (∀ m, MatchPart m q → All G0 (Safe G0 (some spaces)) m) ∧ DynForward d q)
      (.many1 (.range ⟨.incl 97, .incl 122⟩) .empty) :=
    CAll.intro ⟨fun m hm => by cases hm; exact leaf, trivial⟩ fun _ hc => absurd hc id
  have := C78_calls_building_safe (G := G0) (p := Demo.names) (d := d) (e := 2) (w := 1 + (blen d + 1) * (2 + (2 + 2) + (2 + (2 + 2)))) spaces_safe
    (fun q hq => by cases hq; exact .plainUnit rfl fun _ => id)
    (CAll.intro ⟨fun m hm => by cases hm; exact all_lit trivial, trivial⟩ fun q hq => by cases hq; exact cleaf)
    (.sep (.inl ⟨⟨.many1, leaf⟩, cleaf⟩) (.plainUnit rfl fun _ => id) (.plain trivial))
    (Nat.le_refl _) ho hr
  omega

/-- The names are one loop: linearly many calls. -/
example : ∃ A, ∀ (d : List Char) (o : Nat) (r : Except Error Span) (o' c : Nat), o ≤ blen d →
    RunsWork G0 (some spaces) d Demo.names o r o' c → c ≤ A * (blen d + 1) ^ 1 :=
  C78_polynomial_calls (G := G0) (e := 2) spaces_safe (fun q hq L => by cases hq; exact .plainUnit rfl fun _ => id)
    names_safe (.sep (k := 0) (.inl ⟨.many1, All.intro trivial fun _ hc => absurd hc id⟩)
      (.plainUnit rfl fun _ => id) (.plain trivial))

/-- Without loops: at most five calls on every text. -/
example (d : List Char) (o : Nat) (ho : o ≤ blen d) {r : Except Error Span} {o' c : Nat}
    (hr : RunsWork (G0 (β := Nat)) none d (.thn (.many1 (.range ⟨.incl 97, .incl 122⟩) .empty) (.lit [','])) o r o' c) : c ≤ 5 := by
  refine C78_calls_safe (G := G0) (pol := none) (e := 0) (fun q hq => by cases hq) (fun q hq => by cases hq) ?_
    (w := 5) (.thn (.plainUnit rfl fun _ => id) (.plain (p := .lit [',']) trivial)) (Nat.le_refl _) ho hr
  refine All.intro trivial fun q hq => ?_
  rcases hq with rfl | rfl
  · exact All.intro trivial fun _ hc => absurd hc id
  · exact all_lit trivial

/-! ## Recursion -/

namespace Work

/-- `expr = '(' expr ')' '+' | '(' expr ')' | 'x'`: two alternatives begin with the same
recursive part. -/
def expr : Pat Char Nat :=
  .or (.suf (.enclose (.lit ['(']) (.cell 0) (.lit [')'])) (.lit ['+']))
    (.or (.enclose (.lit ['(']) (.cell 0) (.lit [')'])) (.lit ['x']))

/-- Cell 0 holds `expr`. -/
def GE : Rules Char Nat := fun i => if i = 0 then some expr else none

/-- `(((x)))`. -/
def nest (k : Nat) : List Char := List.replicate k '(' ++ 'x' :: List.replicate k ')'

theorem blen_rep (k : Nat) (c : Char) (h : Item.size c = 1) : blen (List.replicate k c) = k := by
  induction k with
  | zero => rfl
  | succ k ih => rw [List.replicate_succ, blen_cons, h, ih]; omega

/-- Its text from offset `j` on, in front of the middle. -/
theorem orig_open (j k : Nat) : origAt (nest (j + k)) j =
    .ok (List.replicate k '(' ++ 'x' :: List.replicate (j + k) ')') := by
  rw [origAt_ok, nest, ← List.replicate_append_replicate, List.append_assoc]
  have := dropB_append (List.replicate j '(') (List.replicate k '(' ++ 'x' :: List.replicate (j + k) ')')
  rwa [blen_rep j '(' rfl] at this

/-- The same behind the middle. -/
theorem orig_close (j k : Nat) : origAt (nest (j + k)) (j + 2 * k + 1) = .ok (List.replicate j ')') := by
  rw [origAt_ok, nest]
  have := dropB_append (List.replicate (j + k) '(' ++ 'x' :: List.replicate k ')') (List.replicate j ')')
  rw [blen_append, blen_cons, blen_rep _ '(' rfl, blen_rep _ ')' rfl, show Item.size 'x' = 1 from rfl, List.append_assoc,
    List.cons_append, List.replicate_append_replicate, Nat.add_comm k j] at this
  rw [← this]; congr 1; omega

theorem work_succ (n : Nat) (d : List Char) (p : Pat Char Nat) (k o : Nat) :
    workParse (σ := Unit) GE (n + 1) none d p ((), k) o =
      impStep GE n (fun d => workParse GE n none d) (workParse GE n none d) d p ((), k + 1) o := rfl

theorem lit_hit {d : List Char} {o n : Nat} {c : Char} {rest : List Char} (h : origAt d o = .ok (c :: rest))
    (hc : Item.size c = 1) (k : Nat) :
    workParse (σ := Unit) GE (n + 1) none d (.lit [c]) ((), k) o = some (.done (.ok ⟨o, 1⟩) ((), k + 1) (o + 1)) := by
  have hl := origAt_len h
  rw [blen_cons, hc] at hl
  have h1 : o ≤ blen d := by omega
  have h2 : blen d - o ≥ 1 := by omega
  rw [work_succ]
  refine (congrFun (congrFun (imp_lit (σ := Unit × Nat) GE n (fun _ _ _ => none) (fun _ _ => none) d [c]) ((), k + 1)) o).trans ?_
  simp [liftR, step, litParse, remK, h1, h2, h, hc, List.isPrefixOf, newSpanInc, caseR, caseO]

theorem lit_miss {d : List Char} {o n : Nat} {c : Char} {rest : List Char} (h : origAt d o = .ok rest)
    (hc : rest.head? ≠ some c) (k : Nat) :
    workParse (σ := Unit) GE (n + 1) none d (.lit [c]) ((), k) o = some (.done (.error .literal) ((), k + 1) o) := by
  have hl := origAt_len h
  have h1 : o ≤ blen d := by omega
  have hp : [c].isPrefixOf rest = false := by
    cases rest with
    | nil => rfl
    | cons x rest => simp at hc; simp [List.isPrefixOf, Ne.symm hc]
  rw [work_succ]
  refine (congrFun (congrFun (imp_lit (σ := Unit × Nat) GE n (fun _ _ _ => none) (fun _ _ => none) d [c]) ((), k + 1)) o).trans ?_
  have hs : litParse d [c] o = some (.err .literal o) := by
    simp only [litParse, remK, h1, if_true, h, hp, caseO, Bool.false_eq_true, if_false]
    split <;> rfl
  simp only [liftR, step, hs]

/-- The calls made for `k` levels. -/
def cost : Nat → Nat
  | 0 => 9
  | k + 1 => 2 * cost k + 11

theorem cost_eq (k : Nat) : cost k + 11 = 20 * 2 ^ k := by
  induction k with
  | zero => rfl
  | succ k ih => rw [Nat.pow_succ, cost]; omega

theorem run_enclose {d : List Char} {n k k1 o l l2 : Nat}
    (h1 : workParse (σ := Unit) GE n none d (.lit ['(']) ((), k + 1) o = some (.done (.ok ⟨o, 1⟩) ((), k + 2) (o + 1)))
    (h2 : workParse (σ := Unit) GE n none d (.cell 0) ((), k + 2) (o + 1) = some (.done (.ok ⟨o + 1, l⟩) ((), k1) l2))
    (h3 : workParse (σ := Unit) GE n none d (.lit [')']) ((), k1) l2 = some (.done (.ok ⟨l2, 1⟩) ((), k1 + 1) (l2 + 1)))
    (hl : l2 = o + 1 + l) :
    workParse (σ := Unit) GE (n + 1) none d (.enclose (.lit ['(']) (.cell 0) (.lit [')'])) ((), k) o =
      some (.done (.ok ⟨o, l + 2⟩) ((), k1 + 1) (l2 + 1)) := by
  rw [work_succ]
  simp only [impStep, Imp.enclose]
  try run
  simp only [h1, isOk_ok, if_true]
  try run
  simp only [h2, isOk_ok, if_true]
  have e1 : Span.addAssign ⟨o, 1⟩ ⟨o + 1, l⟩ = some ⟨o, l + 1⟩ := by
    simp [Span.addAssign]; omega
  have e2 : Span.addAssign ⟨o, l + 1⟩ ⟨l2, 1⟩ = some ⟨o, l + 2⟩ := by
    simp [Span.addAssign]; omega
  simp only [e1, M.pure_app]
  try run
  simp only [h3, isOk_ok, if_true, e2, M.pure_app]
  try run

theorem run_enclose_miss {d : List Char} {n k o : Nat}
    (h1 : workParse (σ := Unit) GE n none d (.lit ['(']) ((), k + 1) o = some (.done (.error .literal) ((), k + 2) o)) :
    workParse (σ := Unit) GE (n + 1) none d (.enclose (.lit ['(']) (.cell 0) (.lit [')'])) ((), k) o =
      some (.done (.error .literal) ((), k + 2) o) := by
  rw [work_succ]
  simp only [impStep, Imp.enclose]
  try run
  simp only [h1, isOk_error]
  try run

theorem run_suf {d : List Char} {n k k1 o : Nat} {a b : Pat Char Nat} {o1 : Nat} {r : Except Error Span}
    (h1 : workParse (σ := Unit) GE n none d a ((), k + 1) o = some (.done r ((), k1) o1))
    (h2 : ∀ s, r = .ok s →
      workParse (σ := Unit) GE n none d b ((), k1) o1 = some (.done (.error .literal) ((), k1 + 1) o1)) :
    workParse (σ := Unit) GE (n + 1) none d (.suf a b) ((), k) o =
      some (.done (.error (match r with | .ok _ => .literal | .error e => e)) ((), k1 + if isOk r then 1 else 0) o) := by
  rw [work_succ]
  simp only [impStep, Imp.suf]
  try run
  cases r with
  | error e =>
    simp only [h1, isOk_error]
    try run
    rfl
  | ok s =>
    simp only [h1, isOk_ok, if_true]
    try run
    simp only [h2 s rfl, isOk_error]
    try run

theorem run_or {d : List Char} {n k k1 k2 o o2 : Nat} {a b : Pat Char Nat} {e : Error} {s : Span}
    (h1 : workParse (σ := Unit) GE n none d a ((), k + 1) o = some (.done (.error e) ((), k1) o))
    (h2 : workParse (σ := Unit) GE n none d b ((), k1) o = some (.done (.ok s) ((), k2) o2)) :
    workParse (σ := Unit) GE (n + 1) none d (.or a b) ((), k) o = some (.done (.ok s) ((), k2) o2) := by
  rw [work_succ]
  simp only [impStep, Imp.or]
  try run
  simp only [h1]
  try run
  simp only [h2]
  try run

theorem run_or_left {d : List Char} {n k k1 o o2 : Nat} {a b : Pat Char Nat} {s : Span}
    (h1 : workParse (σ := Unit) GE n none d a ((), k + 1) o = some (.done (.ok s) ((), k1) o2)) :
    workParse (σ := Unit) GE (n + 1) none d (.or a b) ((), k) o = some (.done (.ok s) ((), k1) o2) := by
  rw [work_succ]
  simp only [impStep, Imp.or]
  try run
  simp only [h1]
  try run

/-- The count, exactly. -/
theorem run_nest (j k m : Nat) :
    workParse (σ := Unit) GE (4 * k + 5) none (nest (j + k)) (.cell 0) ((), m) j =
      some (.done (.ok ⟨j, 2 * k + 1⟩) ((), m + cost k) (j + 2 * k + 1)) := by
  rw [work_succ]
  show workParse (σ := Unit) GE (4 * k + 4) none (nest (j + k)) expr ((), m + 1) j = _
  induction k generalizing j m with
  | zero =>
    have h := orig_open j 0
    simp only [List.replicate_zero, List.nil_append] at h
    have h0 : ∀ n i, workParse (σ := Unit) GE (n + 1) none (nest (j + 0)) (.lit ['(']) ((), i) j =
      some (.done (.error .literal) ((), i + 1) j) := fun n i => lit_miss h (by simp) i
    refine run_or (run_suf (run_enclose_miss (h0 _ _)) fun s hs => by cases hs) ?_
    exact run_or (run_enclose_miss (h0 _ _)) (lit_hit h rfl _)
  | succ k ih =>
    have ho := orig_open j (k + 1)
    rw [List.replicate_succ, List.cons_append] at ho
    have hc := orig_close (j + 1) k
    rw [List.replicate_succ, show j + 1 + k = j + (k + 1) by omega] at hc
    have hc2 := orig_close j (k + 1)
    have hi : ∀ i, workParse (σ := Unit) GE (4 * k + 5) none (nest (j + (k + 1))) (.cell 0) ((), i) (j + 1) =
        some (.done (.ok ⟨j + 1, 2 * k + 1⟩) ((), i + cost k) (j + 1 + 2 * k + 1)) := fun i => by
      rw [work_succ]
      have := ih (j + 1) i
      rw [show j + 1 + k = j + (k + 1) by omega] at this
      exact this
    have he : ∀ i, workParse (σ := Unit) GE (4 * k + 6) none (nest (j + (k + 1)))
        (.enclose (.lit ['(']) (.cell 0) (.lit [')'])) ((), i) j =
        some (.done (.ok ⟨j, 2 * k + 1 + 2⟩) ((), i + 2 + cost k + 1) (j + 1 + 2 * k + 1 + 1)) := fun i =>
      run_enclose (lit_hit ho rfl _) (hi _) (lit_hit hc rfl _) (by omega)
    have := run_or (n := 4 * k + 7) (k := m + 1) (a := .suf (.enclose (.lit ['(']) (.cell 0) (.lit [')'])) (.lit ['+']))
      (run_suf (he _) fun s _ => lit_miss (rest := List.replicate j ')')
        (by rw [← hc2]; congr 1; omega) (by cases j <;> simp [List.replicate_succ]) _)
      (run_or_left (b := .lit ['x']) (he _))
    simp only [isOk_ok, if_true] at this
    refine this.trans ?_
    simp only [cost]
    congr 2 <;> (try congr 1) <;> omega

end Work

/-- **C78 (recursion can be exponential).** Two alternatives that begin with the same recursive
part: parsing `((…x…))` with `n` pairs of parentheses, `2 n + 1` bytes, succeeds, and makes
exactly `20 * 2 ^ n - 11` calls: nothing is remembered, every level is parsed twice. -/
theorem C78_recursion_is_exponential (n : Nat) :
    ∃ c, RunsWork Work.GE none (Work.nest n) (.cell 0) 0 (.ok ⟨0, 2 * n + 1⟩) (2 * n + 1) c ∧ c + 11 = 20 * 2 ^ n := by
  refine ⟨Work.cost n, ⟨4 * n + 5, ?_⟩, Work.cost_eq n⟩
  have := Work.run_nest 0 n 0
  rw [Nat.zero_add, Nat.zero_add, Nat.zero_add] at this
  exact this

end Neure
