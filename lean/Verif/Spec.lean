import Verif.Match
import Verif.Sub
/-!
# Specification vocabulary for the core properties C01–C05

Which patterns a theorem ranges over is always given as `All G P p`: the local
condition `P` holds of `p` and of every pattern reachable from it (through
sub-patterns, conditions, builder results and recursive cells, `Sub.lean`).
`P` excludes only named constructors and misbehaving *user closures*; every
other constructor of the library is allowed.
-/

namespace Neure

set_option linter.unusedSectionVars false

variable {ι β : Type} [Item ι]

/-- A valid position of `d`: an item (character) boundary. -/
def Valid (d : List ι) (o : Nat) : Prop := ∃ pre post, d = pre ++ post ∧ blen pre = o

/-- Local condition for C01: user closures used *as patterns* restore the
offset when they fail, and builder closures do not fail. -/
def Restores : Pat ι β → Prop
  | .native f => ∀ d o e o', f d o = .err e o' → o' = o
  | .build _ f => ∀ d o s e o', f d o s ≠ .err e o'
  | _ => True

/-- Local condition for C02: no `ltm` choice, no separated list with
`skip = false`, no dynamic builder, and user closures used as patterns agree
with the convention. -/
def Tidy : Pat ι β → Prop
  | .native f => ∀ d o, (∀ s o', f d o = .ok s o' → s.beg = o ∧ o' = s.beg + s.len) ∧
      (∀ e o', f d o = .err e o' → o' = o)
  | .ltm _ _ => False
  | .sep _ _ skip _ => skip = true
  | .sep2 _ _ skip _ _ => skip = true
  | .sepCollect _ _ skip _ => skip = true
  | .build _ _ => False
  | _ => True

/-- A condition closure does not panic. -/
def Cond.NoPanic : Cond ι β → Prop
  | .fn f => ∀ d o pr, f d o pr ≠ .panic
  | _ => True

/-- Post-condition: no panic; on success the offset moves forward within
bounds and the span lies between the old and the new offset; on failure the
offset does not move backwards or out of bounds. -/
def Fwd (d : List ι) (o : Nat) : Res Span → Prop
  | .ok s o' => o ≤ s.beg ∧ s.beg + s.len ≤ o' ∧ o' ≤ blen d
  | .err _ o' => o ≤ o' ∧ o' ≤ blen d
  | .panic => False

/-- Local condition for C04/C05 under policy `pol`: no `ltm` choice; `longest`
only on a plain context over tidy alternatives; user closures behave. -/
def Safe (G : Rules ι β) (pol : Option (Pat ι β)) : Pat ι β → Prop
  | .native f => ∀ d o, o ≤ blen d → Fwd d o (f d o)
  | .ltm _ _ => False
  | .longest a b => pol = none ∧ All G Tidy a ∧ All G Tidy b
  | .build _ f => ∀ d o s, o ≤ blen d → match f d o s with
      | .ok _ o' => o ≤ o' ∧ o' ≤ blen d
      | .err _ o' => o ≤ o' ∧ o' ≤ blen d
      | .panic => False
  | .dthen _ _ => False
  | .branch t _ _ => ∀ d o, t d o ≠ .panic
  | .once _ c | .many1 _ c | .optU _ c | .many0 _ c | .between _ _ _ c | .times _ _ c
  | .thenU _ _ c => c.NoPanic
  | _ => True

/-- A policy is safe: it and everything in it is safe on the plain context. -/
def SafePol (G : Rules ι β) (pol : Option (Pat ι β)) : Prop :=
  ∀ q, pol = some q → All G (Safe G none) q

/-- Local condition for C03: `consume n` only on single-byte items (or `n = 0`);
`longest` only on a plain context over tidy alternatives; user closures preserve
boundaries. -/
def Bounded (G : Rules ι β) (pol : Option (Pat ι β)) : Pat ι β → Prop
  | .consume n => n = 0 ∨ ∀ x : ι, Item.size x = 1
  | .native f => ∀ d o, Valid d o → match f d o with
      | .ok s o' => Valid d s.beg ∧ Valid d (s.beg + s.len) ∧ Valid d o'
      | .err _ o' => Valid d o'
      | .panic => True
  | .longest a b => pol = none ∧ All G Tidy a ∧ All G Tidy b
  | .build _ f => ∀ d o s, Valid d o → match f d o s with
      | .ok _ o' => Valid d o'
      | .err _ o' => Valid d o'
      | .panic => True
  | _ => True

/-- A policy preserves boundaries. -/
def BoundPol (G : Rules ι β) (pol : Option (Pat ι β)) : Prop :=
  ∀ q, pol = some q → All G (Bounded G none) q

/-- Local condition for the second half of C05: no `longest`, no `ltm`, and no
loops (`repeat`, `repeat2`, `collect`, `sep*`): under a policy the failing last
iteration of a loop has already skipped.  User closures agree. -/
def Ends : Pat ι β → Prop
  | .native f => ∀ d o s o', f d o = .ok s o' → o' = s.beg + s.len
  | .longest _ _ | .ltm _ _ | .rep _ _ | .rep2 _ _ _ | .collect _ _ | .sep _ _ _ _
  | .sep2 _ _ _ _ _ | .sepCollect _ _ _ _ => False
  | _ => True

/-- `try_mat(p)` at `o` returns `Ok`. -/
def Matches (G : Rules ι β) (pol : Option (Pat ι β)) (d : List ι) (p : Pat ι β) (o : Nat) : Prop :=
  ∃ s o', Runs G pol d p o (.ok s o')

/-- `try_mat(p)` at `o` returns `Err`. -/
def Fails (G : Rules ι β) (pol : Option (Pat ι β)) (d : List ι) (p : Pat ι β) (o : Nat) : Prop :=
  ∃ e o', Runs G pol d p o (.err e o')

/-- `s` is the region covered by `s1` followed by `s2`, where `s2` does not
begin before `s1` begins nor end before `s1` ends. -/
def Hull (s1 s2 s : Span) : Prop :=
  s1.beg ≤ s2.beg ∧ s1.beg + s1.len ≤ s2.beg + s2.len ∧
    s.beg = s1.beg ∧ s.beg + s.len = s2.beg + s2.len

instance (s1 s2 s : Span) : Decidable (Hull s1 s2 s) := by unfold Hull; infer_instance

/-- `Applied G pol d p k t o t' o'`: starting at offset `o` with `t` covered so
far, `k` consecutive applications of `p` succeed, each starting where the
previous one stopped; `t'` is covered afterwards and the offset is `o'`. -/
inductive Applied (G : Rules ι β) (pol : Option (Pat ι β)) (d : List ι) (p : Pat ι β) :
    Nat → Span → Nat → Span → Nat → Prop where
  | zero (t : Span) (o : Nat) : Applied G pol d p 0 t o t o
  | succ {k : Nat} {t s t1 t' : Span} {o o1 o' : Nat} :
      Runs G pol d p o (.ok s o1) → Hull t s t1 → Applied G pol d p k t1 o1 t' o' →
      Applied G pol d p (k + 1) t o t' o'

/-- The same for pairs "`p` then separator `s`". -/
inductive AppliedSep (G : Rules ι β) (pol : Option (Pat ι β)) (d : List ι) (p s : Pat ι β) :
    Nat → Span → Nat → Span → Nat → Prop where
  | zero (t : Span) (o : Nat) : AppliedSep G pol d p s 0 t o t o
  | succ {k : Nat} {t sp t1 ss t2 t' : Span} {o o1 o2 o' : Nat} :
      Runs G pol d p o (.ok sp o1) → Runs G pol d s o1 (.ok ss o2) → Hull t sp t1 → Hull t1 ss t2 →
      AppliedSep G pol d p s k t2 o2 t' o' → AppliedSep G pol d p s (k + 1) t o t' o'

/-- What a separated list finds: `k` pairs "element, separator" are matched
from `o` (covering `t`, up to offset `o1`), and then either no further element
matches at `o1` (`x = none`), or a further element `x` matches but no separator
follows it.  `o'` is the offset after the last, failing attempt. -/
def ListEnd (G : Rules ι β) (pol : Option (Pat ι β)) (d : List ι) (p s : Pat ι β) (o k : Nat)
    (t : Span) (x : Option Span) (o' : Nat) : Prop :=
  ∃ o1, AppliedSep G pol d p s k ⟨o, 0⟩ o t o1 ∧
    match x with
    | none => ∃ e, Runs G pol d p o1 (.err e o')
    | some sp => ∃ o2 e, Runs G pol d p o1 (.ok sp o2) ∧ Runs G pol d s o2 (.err e o')

/-- Upper bound of a range, as a condition on counts. -/
def Bound.allowsUpTo : Bound → Nat → Prop
  | .incl m, k => k ≤ m
  | .excl m, k => k < m
  | .unb, _ => True

/-- Lower bound of a range, as a condition on counts. -/
def Bound.allowsFrom : Bound → Nat → Prop
  | .incl m, k => m ≤ k
  | .excl m, k => m < k
  | .unb, _ => True

/-! ## Unit patterns (C22–C26) -/

/-- The condition `c`, evaluated for the item `x` located `i` bytes after the
current offset `o`, gives `r`.  A `regex_cond(p)` is run on the input that
starts at the item, at offset 0 of that input. -/
def CondGives (G : Rules ι β) (pol : Option (Pat ι β)) (d : List ι) (o : Nat) (c : Cond ι β)
    (i : Nat) (x : ι) (r : Out Bool) : Prop :=
  match c with
  | .empty => r = .ok true
  | .fn f => f d o (i, x) = r
  | .regex p => ∃ pre rest, d = pre ++ rest ∧ blen pre = o + i ∧
      ((r = .ok true ∧ Matches G pol rest p 0) ∨ (r = .ok false ∧ Fails G pol rest p 0) ∨
       (r = .panic ∧ Runs G pol rest p 0 .panic))

/-- The unit with its condition, on an item: the condition is only consulted
if the unit accepts. -/
def ItemGives (G : Rules ι β) (pol : Option (Pat ι β)) (d : List ι) (o : Nat) (u : Neu ι)
    (c : Cond ι β) (i : Nat) (x : ι) (r : Out Bool) : Prop :=
  (u.isMatch x = true ∧ CondGives G pol d o c i x r) ∨ (u.isMatch x = false ∧ r = .ok false)

/-- Every item of `run`, which starts at `o`, is accepted, and `run` has no more
items than `allows` permits. -/
def AcceptedRun (G : Rules ι β) (pol : Option (Pat ι β)) (d : List ι) (o : Nat) (u : Neu ι)
    (c : Cond ι β) (allows : Nat → Prop) (run : List ι) : Prop :=
  ∀ a x b, run = a ++ x :: b →
    allows (a.length + 1) ∧ ItemGives G pol d o u c (blen a) x (.ok true)

/-- `run` followed by `rest` is the input from `o` on, and `run` is the longest
accepted run of at most the allowed length. -/
def GreedyRun (G : Rules ι β) (pol : Option (Pat ι β)) (d : List ι) (o : Nat) (u : Neu ι)
    (c : Cond ι β) (allows : Nat → Prop) (run rest : List ι) : Prop :=
  (∃ pre, d = pre ++ run ++ rest ∧ blen pre = o) ∧
  AcceptedRun G pol d o u c allows run ∧
  (∀ x b, rest = x :: b → allows (run.length + 1) →
    ItemGives G pol d o u c (blen run) x (.ok false))

/-- While scanning from `o`, evaluating the condition failed with error `e`. -/
def ScanError (G : Rules ι β) (pol : Option (Pat ι β)) (d : List ι) (o : Nat) (u : Neu ι)
    (c : Cond ι β) (allows : Nat → Prop) (e : Error) : Prop :=
  ∃ pre run x rest, d = pre ++ run ++ x :: rest ∧ blen pre = o ∧
    AcceptedRun G pol d o u c allows run ∧ allows (run.length + 1) ∧
    ItemGives G pol d o u c (blen run) x (.err e)

/-- The declared minimal length of the unit is at most the size of every item
it accepts. -/
def Neu.Fair (u : Neu ι) : Prop := ∀ x, u.isMatch x = true → u.minLength ≤ Item.size x

/-! ## Locality (C27) -/

/-- A span moved by `k` bytes. -/
def Span.shift (k : Nat) (s : Span) : Span := ⟨k + s.beg, s.len⟩

/-- An outcome moved by `k` bytes: spans and offsets move, errors stay. -/
def Res.shift (k : Nat) : Res Span → Res Span
  | .ok s o => .ok (s.shift k) (k + o)
  | .err e o => .err e (k + o)
  | .panic => .panic

/-- A condition closure looks at the remaining input only. -/
def Cond.Local : Cond ι β → Prop
  | .fn f => ∀ pre d o pr, f (pre ++ d) (blen pre + o) pr = f d o pr
  | _ => True

/-- Local condition for C27: not the `start` anchor; user closures look at the
remaining input only. -/
def Local : Pat ι β → Prop
  | .start => False
  | .native f => ∀ pre d o, f (pre ++ d) (blen pre + o) = (f d o).shift (blen pre)
  | .once _ c | .many1 _ c | .optU _ c | .many0 _ c | .between _ _ _ c | .times _ _ c
  | .thenU _ _ c => c.Local
  | .branch t _ _ => ∀ pre d o, t (pre ++ d) (blen pre + o) = t d o
  | .build _ f => ∀ pre d o s, f (pre ++ d) (blen pre + o) (s.shift (blen pre)) =
      match f d o s with
      | .ok p o' => .ok p (blen pre + o')
      | .err e o' => .err e (blen pre + o')
      | .panic => .panic
  | _ => True

/-! ## Searching (C28–C30) -/

/-- `p` does not match non-emptily at `j`: it fails, or matches nothing. -/
def NoHit (G : Rules ι β) (pol : Option (Pat ι β)) (d : List ι) (p : Pat ι β) (j : Nat) : Prop :=
  Fails G pol d p j ∨ ∃ s o', Runs G pol d p j (.ok s o') ∧ s.len = 0

/-- `p` matches non-emptily at `k`, covering `s`, leaving the offset at `o'`. -/
def Hit (G : Rules ι β) (pol : Option (Pat ι β)) (d : List ι) (p : Pat ι β) (k : Nat) (s : Span)
    (o' : Nat) : Prop := Runs G pol d p k (.ok s o') ∧ s.len ≠ 0

/-- `k` is the leftmost position in `[o, len)` with a non-empty match. -/
def FirstHit (G : Rules ι β) (pol : Option (Pat ι β)) (d : List ι) (p : Pat ι β) (o k : Nat) (s : Span)
    (o' : Nat) : Prop :=
  o ≤ k ∧ k < blen d ∧ (∀ j, o ≤ j → j < k → NoHit G pol d p j) ∧ Hit G pol d p k s o'

/-- Local condition "does not look inside characters": byte counting patterns
only on single-byte items, user closures consume nothing at a position that is
not a boundary, no dynamic builders. -/
def Aligned : Pat ι β → Prop
  | .consume n => n = 0 ∨ ∀ x : ι, Item.size x = 1
  | .consumeAll => ∀ x : ι, Item.size x = 1
  | .native f => ∀ d o, ¬ Valid d o → match f d o with
      | .ok s o' => s = ⟨o, 0⟩ ∧ o' = o
      | .err _ o' => o' = o
      | .panic => True
  | .build _ _ => False
  | _ => True

end Neure
