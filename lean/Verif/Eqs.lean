import Verif.Den
import Verif.DataLemmas
/-!
# The fuel-free evaluator, constructor by constructor

Derived from `parseL_eq`; used to prove the property theorems.
-/

namespace Neure

set_option linter.unusedSectionVars false

variable {ι β : Type} [Item ι]

/-- Two parts in a row (`Then`, `Prefix`, `Suffix` share this shape). -/
def seq2 (mt : Pat ι β → Nat → Option (Res Span)) (a b : Pat ι β) (o : Nat) : Option (Res Span) :=
  caseR (mt a o)
    (fun s1 o1 => caseR (mt b o1)
      (fun s2 o2 => addK s1 s2 fun s => some (.ok s o2))
      (fun e _ => some (.err e o)))
    (fun e _ => some (.err e o))

variable (G : Rules ι β) (pol : Option (Pat ι β)) (d : List ι) (o : Nat)

theorem parseL_empty :
    parseL G pol d (.empty) o = some (.ok ⟨o, 0⟩ o) := by
  rw [parseL_eq]; exact lim_const _

theorem parseL_fail :
    parseL G pol d (.fail) o = some (.err .fail o) := by
  rw [parseL_eq]; exact lim_const _

theorem parseL_start :
    parseL G pol d (.start) o = if o = 0 then some (.ok ⟨o, 0⟩ o) else some (.err .anchorStart o) := by
  rw [parseL_eq]; exact lim_const _

theorem parseL_anchorEnd :
    parseL G pol d (.anchorEnd) o = if o = blen d then some (.ok ⟨o, 0⟩ o) else some (.err .anchorEnd o) := by
  rw [parseL_eq]; exact lim_const _

theorem parseL_consume (n : Nat) :
    parseL G pol d (.consume n) o = consumeParse d n o := by
  rw [parseL_eq]; exact lim_const _

theorem parseL_consumeAll :
    parseL G pol d (.consumeAll) o = some (.ok ⟨o, blen d - o⟩ (o + (blen d - o))) := by
  rw [parseL_eq]; exact lim_const _

theorem parseL_lit (l : List ι) :
    parseL G pol d (.lit l) o = litParse d l o := by
  rw [parseL_eq]; exact lim_const _

theorem parseL_native (f : List ι → Nat → Res Span) :
    parseL G pol d (.native f) o = some (f d o) := by
  rw [parseL_eq]; exact lim_const _

theorem parseL_once (u : Neu ι) (c : Cond ι β) :
    parseL G pol d (.once u c) o = onceParse (matL G pol) d u c o := by
  rw [parseL_eq]; exact lim_const _

theorem parseL_many1 (u : Neu ι) (c : Cond ι β) :
    parseL G pol d (.many1 u c) o = many1Parse (matL G pol) d u c o := by
  rw [parseL_eq]; exact lim_const _

theorem parseL_optU (u : Neu ι) (c : Cond ι β) :
    parseL G pol d (.optU u c) o = optUParse (matL G pol) d u c o := by
  rw [parseL_eq]; exact lim_const _

theorem parseL_many0 (u : Neu ι) (c : Cond ι β) :
    parseL G pol d (.many0 u c) o = many0Parse (matL G pol) d u c o := by
  rw [parseL_eq]; exact lim_const _

theorem parseL_between (m n : Nat) (u : Neu ι) (c : Cond ι β) :
    parseL G pol d (.between m n u c) o = betweenParse (matL G pol) d m n u c o := by
  rw [parseL_eq]; exact lim_const _

theorem parseL_times (r : CRange) (u : Neu ι) (c : Cond ι β) :
    parseL G pol d (.times r u c) o = timesParse (matL G pol) d r u c o := by
  rw [parseL_eq]; exact lim_const _

theorem parseL_thenU (u v : Neu ι) (c : Cond ι β) :
    parseL G pol d (.thenU u v c) o = thenUParse (matL G pol) d u v c o := by
  rw [parseL_eq]; exact lim_const _

theorem parseL_assert (q : Pat ι β) (value : Bool) :
    parseL G pol d (.assert q value) o = caseR (matL G pol d q o)
      (fun _ _ => if value then some (.ok ⟨o, 0⟩ o) else some (.err .assertFalse o))
      (fun _ _ => if value then some (.err .assertTrue o) else some (.ok ⟨o, 0⟩ o)) := by
  rw [parseL_eq]; exact lim_const _

theorem parseL_thn (a b : Pat ι β) :
    parseL G pol d (.thn a b) o = seq2 (matL G pol d) a b o := by
  rw [parseL_eq]; exact lim_const _

theorem parseL_pre (a b : Pat ι β) :
    parseL G pol d (.pre a b) o = seq2 (matL G pol d) a b o := by
  rw [parseL_eq]; exact lim_const _

theorem parseL_suf (a b : Pat ι β) :
    parseL G pol d (.suf a b) o = seq2 (matL G pol d) a b o := by
  rw [parseL_eq]; exact lim_const _

theorem parseL_ifThen (a t b : Pat ι β) :
    parseL G pol d (.ifThen a t b) o = caseR (matL G pol d a o)
      (fun s1 o1 => caseR (matL G pol d t o1)
        (fun s2 o2 => addK s1 s2 fun s12 => caseR (matL G pol d b o2)
          (fun s3 o3 => addK s12 s3 fun s => some (.ok s o3))
          (fun e _ => some (.err e o)))
        (fun _ _ => some (.ok s1 o1)))
      (fun e _ => some (.err e o)) := by
  rw [parseL_eq]; exact lim_const _

theorem parseL_enclose (a b c : Pat ι β) :
    parseL G pol d (.enclose a b c) o = caseR (matL G pol d a o)
      (fun s1 o1 => caseR (matL G pol d b o1)
        (fun s2 o2 => addK s1 s2 fun s12 => caseR (matL G pol d c o2)
          (fun s3 o3 => addK s12 s3 fun s => some (.ok s o3))
          (fun e _ => some (.err e o)))
        (fun e _ => some (.err e o)))
      (fun e _ => some (.err e o)) := by
  rw [parseL_eq]; exact lim_const _

theorem parseL_sepOnce (a b c : Pat ι β) :
    parseL G pol d (.sepOnce a b c) o = caseR (matL G pol d a o)
      (fun s1 o1 => addK ⟨o, 0⟩ s1 fun t1 => caseR (matL G pol d b o1)
        (fun s2 o2 => addK t1 s2 fun t2 => caseR (matL G pol d c o2)
          (fun s3 o3 => addK t2 s3 fun s => some (.ok s o3))
          (fun e _ => some (.err e o)))
        (fun e _ => some (.err e o)))
      (fun e _ => some (.err e o)) := by
  rw [parseL_eq]; exact lim_const _

theorem parseL_or (a b : Pat ι β) :
    parseL G pol d (.or a b) o = caseR (matL G pol d a o) (fun s o1 => some (.ok s o1))
      (fun _ _ => caseR (matL G pol d b o) (fun s o2 => some (.ok s o2)) (fun e _ => some (.err e o))) := by
  rw [parseL_eq]; exact lim_const _

theorem parseL_longest (a b : Pat ι β) :
    parseL G pol d (.longest a b) o = caseR (matL G pol d a o)
      (fun l _ => caseR (matL G pol d b o)
        (fun r _ => if l.len ≥ r.len then some (.ok l (o + l.len)) else some (.ok r (o + r.len)))
        (fun _ _ => some (.ok l (o + l.len))))
      (fun _ _ => caseR (matL G pol d b o)
        (fun r _ => some (.ok r (o + r.len)))
        (fun e _ => some (.err e o))) := by
  rw [parseL_eq]; exact lim_const _

theorem parseL_opt (q : Pat ι β) :
    parseL G pol d (.opt q) o = caseR (matL G pol d q o) (fun s o1 => some (.ok s o1)) (fun _ _ => some (.ok ⟨o, 0⟩ o)) := by
  rw [parseL_eq]; exact lim_const _

theorem parseL_choice (e : Error) (items : List (Pat ι β × Option (Val β))) :
    parseL G pol d (.choice e items) o = choiceLoop (matL G pol d) e o items o := by
  rw [parseL_eq]; exact lim_const _

theorem parseL_ltm (e : Error) (items : List (Pat ι β × Option (Val β))) :
    parseL G pol d (.ltm e items) o = ltmLoop (matL G pol d) e o items none o := by
  rw [parseL_eq]; exact lim_const _

theorem parseL_rep (q : Pat ι β) (r : CRange) :
    parseL G pol d (.rep q r) o = repL (matL G pol d) q r.more (finish r.contains .repeat_ o) 0 ⟨o, 0⟩ o := by
  rw [parseL_eq]; rfl

theorem parseL_rep2 (q : Pat ι β) (m n : Nat) :
    parseL G pol d (.rep2 q m n) o = repL (matL G pol d) q (fun c => decide (c ≤ n))
      (finish (fun c => decide (m ≤ c) && decide (c ≤ n)) .repeat2 o) 0 ⟨o, 0⟩ o := by
  rw [parseL_eq]; rfl

theorem parseL_collect (q : Pat ι β) (min : Nat) :
    parseL G pol d (.collect q min) o = repL (matL G pol d) q (fun _ => true)
      (finish (fun c => decide (c ≥ min)) .collect o) 0 ⟨o, 0⟩ o := by
  rw [parseL_eq]; rfl

theorem parseL_sep (q s : Pat ι β) (skip : Bool) (min : Nat) :
    parseL G pol d (.sep q s skip min) o = sepL (matL G pol d) q s skip (fun _ => true)
      (finish (fun c => decide (c ≥ min)) .separate o) 0 ⟨o, 0⟩ o := by
  rw [parseL_eq]; rfl

theorem parseL_sep2 (q s : Pat ι β) (skip : Bool) (m n : Nat) :
    parseL G pol d (.sep2 q s skip m n) o = sepL (matL G pol d) q s skip (fun c => decide (c ≤ n))
      (finish (fun c => decide (c ≥ m)) .separate2 o) 0 ⟨o, 0⟩ o := by
  rw [parseL_eq]; rfl

theorem parseL_sepCollect (q s : Pat ι β) (skip : Bool) (min : Nat) :
    parseL G pol d (.sepCollect q s skip min) o = sepL (matL G pol d) q s skip (fun _ => true)
      (finish (fun c => decide (c ≥ min)) .sepCollect o) 0 ⟨o, 0⟩ o := by
  rw [parseL_eq]; rfl

theorem parseL_branch (t : List ι → Nat → Out Bool) (a b : Pat ι β) :
    parseL G pol d (.branch t a b) o = caseO (some (t d o))
      (fun t => caseR (matL G pol d (if t then a else b) o) (fun s o1 => some (.ok s o1))
        (fun e _ => some (.err e o)))
      (fun e => some (.err e o)) := by
  rw [parseL_eq]; exact lim_const _

theorem parseL_map (q : Pat ι β) (f : Val β → Out (Val β)) :
    parseL G pol d (.map q f) o = matL G pol d q o := by
  rw [parseL_eq]; exact lim_const _

theorem parseL_pat (q : Pat ι β) :
    parseL G pol d (.pat q) o = matL G pol d q o := by
  rw [parseL_eq]; exact lim_const _

theorem parseL_build (q : Pat ι β) (f : List ι → Nat → Span → Res (Pat ι β)) :
    parseL G pol d (.build q f) o = caseR (matL G pol d q o)
      (fun s o1 => caseR (some (f d o1 s))
        (fun p' o2 => caseR (matL G pol d p' o2) (fun s' o3 => some (.ok s' o3))
          (fun e _ => some (.err e o)))
        (fun e o2 => some (.err e o2)))
      (fun e _ => some (.err e o)) := by
  rw [parseL_eq]; exact lim_const _

theorem parseL_dthen (q : Pat ι β) (f : List ι → Nat → Val β → Res (Pat ι β)) :
    parseL G pol d (.dthen q f) o = some .panic := by
  rw [parseL_eq]; exact lim_const _

theorem parseL_cell (i : Nat) :
    parseL G pol d (.cell i) o = match G i with
    | none => some (.err .option o)
    | some q => parseL G pol d q o := by
  rw [parseL_eq]; exact lim_const _

theorem caseR_some {α γ : Type} {x : Option (Res α)} {f : α → Nat → Option (Res γ)}
    {g : Error → Nat → Option (Res γ)} {r : Res γ} : caseR x f g = some r ↔
      (x = some .panic ∧ r = .panic) ∨ (∃ a o, x = some (.ok a o) ∧ f a o = some r) ∨
      (∃ e o, x = some (.err e o) ∧ g e o = some r) := by
  cases x with
  | none => simp [caseR]
  | some v =>
    cases v with
    | ok a o =>
      constructor
      · intro h; exact .inr (.inl ⟨a, o, rfl, h⟩)
      · rintro (⟨h, _⟩ | ⟨_, _, h, h'⟩ | ⟨_, _, h, _⟩) <;> cases h; exact h'
    | err a o =>
      constructor
      · intro h; exact .inr (.inr ⟨a, o, rfl, h⟩)
      · rintro (⟨h, _⟩ | ⟨_, _, h, _⟩ | ⟨_, _, h, h'⟩) <;> cases h; exact h'
    | panic => simp [caseR, eq_comm]

theorem caseO_some {α γ : Type} {x : Option (Out α)} {f : α → Option (Res γ)}
    {g : Error → Option (Res γ)} {r : Res γ} : caseO x f g = some r ↔
      (x = some .panic ∧ r = .panic) ∨ (∃ a, x = some (.ok a) ∧ f a = some r) ∨
      (∃ e, x = some (.err e) ∧ g e = some r) := by
  cases x with
  | none => simp [caseO]
  | some v => cases v <;> simp [caseO, eq_comm]

theorem addK_some {γ : Type} {s t : Span} {k : Span → Option (Res γ)} {r : Res γ} :
    addK s t k = some r ↔
      (s.addAssign t = none ∧ r = .panic) ∨ (∃ u, s.addAssign t = some u ∧ k u = some r) := by
  unfold addK
  cases s.addAssign t <;> simp [eq_comm]

theorem remK_some {γ : Type} {d : List ι} {o : Nat} {k : Nat → Option (Res γ)} {r : Res γ} :
    remK d o k = some r ↔
      (blen d < o ∧ r = .panic) ∨ (o ≤ blen d ∧ k (blen d - o) = some r) := by
  unfold remK
  split
  · next h => simp [h, Nat.not_lt.mpr h]
  · next h => simp [h, Nat.lt_of_not_le h, eq_comm]

end Neure
