import Verif.Spec
/-!
# Parsing expression grammars: an independent semantics

The textbook semantics of parsing expression grammars (B. Ford, *Parsing
Expression Grammars: A Recognition-Based Syntactic Foundation*, POPL 2004,
section 3.3), and the reading of a pattern as a parsing expression.  Nothing
here refers to the evaluator (`Match.lean`), to offsets, spans, contexts or
fuel; `Spec.lean` is used for the meaning of range bounds only.
-/

namespace Neure

/-- Parsing expressions over items `ι`; `nt i` is the `i`-th nonterminal. -/
inductive Peg (ι : Type) where
  | eps
  | cls (f : ι → Bool)
  | nt (i : Nat)
  | seq (a b : Peg ι)
  | alt (a b : Peg ι)
  | star (a : Peg ι)
  | not (a : Peg ι)

/-- `Ford R e x r`: under the rules `R`, the parsing expression `e` applied to
the input `x` succeeds leaving `y` (`r = some y`) or fails (`r = none`). -/
inductive Ford {ι : Type} (R : Nat → Peg ι) : Peg ι → List ι → Option (List ι) → Prop where
  | eps {x} : Ford R .eps x (some x)
  | cls_ok {f a x} : f a = true → Ford R (.cls f) (a :: x) (some x)
  | cls_no {f a x} : f a = false → Ford R (.cls f) (a :: x) none
  | cls_end {f} : Ford R (.cls f) [] none
  | nt {i x r} : Ford R (R i) x r → Ford R (.nt i) x r
  | seq_ok {a b x y r} : Ford R a x (some y) → Ford R b y r → Ford R (.seq a b) x r
  | seq_fail {a b x} : Ford R a x none → Ford R (.seq a b) x none
  | alt_1 {a b x y} : Ford R a x (some y) → Ford R (.alt a b) x (some y)
  | alt_2 {a b x r} : Ford R a x none → Ford R b x r → Ford R (.alt a b) x r
  | star_end {a x} : Ford R a x none → Ford R (.star a) x (some x)
  | star_more {a x y r} : Ford R a x (some y) → Ford R (.star a) y r → Ford R (.star a) x r
  | not_ok {a x} : Ford R a x none → Ford R (.not a) x (some x)
  | not_fail {a x y} : Ford R a x (some y) → Ford R (.not a) x none

/-! ### The usual abbreviations -/

/-- Any one item, `.`. -/
def Peg.any {ι : Type} : Peg ι := .cls fun _ => true
/-- The expression that always fails. -/
def Peg.fail {ι : Type} : Peg ι := .not .eps
/-- `e?`. -/
def Peg.opt {ι : Type} (e : Peg ι) : Peg ι := .alt e .eps
/-- `e+`. -/
def Peg.plus {ι : Type} (e : Peg ι) : Peg ι := .seq e (.star e)
/-- `&e`. -/
def Peg.and {ι : Type} (e : Peg ι) : Peg ι := .not (.not e)
/-- A literal. -/
def Peg.lit {ι : Type} [DecidableEq ι] : List ι → Peg ι
  | [] => .eps
  | c :: l => .seq (.cls fun a => decide (a = c)) (Peg.lit l)
/-- `e1 / e2 / … / ek`. -/
def Peg.alts {ι : Type} : List (Peg ι) → Peg ι
  | [] => .fail
  | e :: l => .alt e (Peg.alts l)
/-- `e? (e? (… e?))` nested `n` times: at most `n` repetitions. -/
def Peg.upto {ι : Type} (e : Peg ι) : Nat → Peg ι
  | 0 => .eps
  | n + 1 => .opt (.seq e (Peg.upto e n))
/-- `e e … e w`: `m` times `e`, then `w`. -/
def Peg.times {ι : Type} (e : Peg ι) (w : Peg ι) : Nat → Peg ι
  | 0 => w
  | m + 1 => .seq e (Peg.times e w m)
/-- At least `m`, and at most `n` when `n` is given. -/
def Peg.rep {ι : Type} (e : Peg ι) (m : Nat) : Option Nat → Peg ι
  | none => Peg.times e (.star e) m
  | some n => Peg.times e (Peg.upto e (n - m)) m
/-- A list of at least `min` elements `e` separated by `s`, where a separator
after the last element is also consumed: for `min = 0`, `(e s)* e?`. -/
def Peg.list {ι : Type} (e s : Peg ι) : Nat → Peg ι
  | 0 => .seq (.star (.seq e s)) (.opt e)
  | 1 => .seq e (.opt (.seq s (.seq (.star (.seq e s)) (.opt e))))
  | k + 2 => .seq e (.seq s (Peg.list e s (k + 1)))

/-- An item of class `f` at a place where `e` matches: `&f &e f`. -/
def Peg.guard {ι : Type} (f : ι → Bool) (e : Peg ι) : Peg ι := .seq (.and (.cls f)) (.seq (.and e) (.cls f))
/-- Whatever `e` matches has at least one item (a sufficient test). -/
def Peg.moves {ι : Type} : Peg ι → Bool
  | .cls _ => true
  | .seq a b => a.moves || b.moves
  | .alt a b => a.moves && b.moves
  | _ => false
/-- `e` has a result on every input (a sufficient test): it has no nonterminals
and repeats only what moves. -/
def Peg.halts {ι : Type} : Peg ι → Bool
  | .eps => true
  | .cls _ => true
  | .nt _ => false
  | .seq a b => a.halts && b.halts
  | .alt a b => a.halts && b.halts
  | .star a => a.halts && a.moves
  | .not a => a.halts

variable {ι β : Type} [Item ι]

/-- The counts that a range lets pass are those from `m` to `n` (`n = none`:
without upper end). -/
def Counts (r : CRange) (m : Nat) (n : Option Nat) : Prop :=
  (∀ n', n = some n' → m ≤ n') ∧
    ∀ k, (r.lo.allowsFrom k ∧ r.hi.allowsUpTo k) ↔ m ≤ k ∧ ∀ n', n = some n' → k ≤ n'

/-- Which parsing expression a pattern stands for.  `cell i` (a recursive
parser) is the nonterminal `i`.

A unit `u.set_cond(regex)` stands for items of the class at which the condition
matches too.  Where the code first compares the remaining length with what the
unit needs at least (`between`, `times`, `then`), it may fail without having
run the condition; so there the condition has to have a result everywhere,
unless at most one item is required. -/
inductive AsPeg : Pat ι β → Peg ι → Prop where
  | empty : AsPeg .empty .eps
  | fail : AsPeg .fail .fail
  | anchorEnd : AsPeg .anchorEnd (.not .any)
  | consumeAll : AsPeg .consumeAll (.star .any)
  | lit (l) : AsPeg (.lit l) (.lit l)
  | once (u : Neu ι) : AsPeg (.once u .empty) (.cls u.isMatch)
  | many0 (u : Neu ι) : AsPeg (.many0 u .empty) (.star (.cls u.isMatch))
  | many1 (u : Neu ι) : AsPeg (.many1 u .empty) (.plus (.cls u.isMatch))
  | optU (u : Neu ι) : AsPeg (.optU u .empty) (.opt (.cls u.isMatch))
  | between (u : Neu ι) (m n) : u.Fair → m ≤ n →
      AsPeg (.between m n u .empty) (.rep (.cls u.isMatch) m (some n))
  | times (u : Neu ι) (r m n) : u.Fair → Counts r m n →
      AsPeg (.times r u .empty) (.rep (.cls u.isMatch) m n)
  | thenU (u v : Neu ι) : u.Fair → v.Fair →
      AsPeg (.thenU u v .empty) (.seq (.cls u.isMatch) (.cls v.isMatch))
  | onceIf (u : Neu ι) {q e} : AsPeg q e → AsPeg (.once u (.regex q)) (.guard u.isMatch e)
  | many0If (u : Neu ι) {q e} : AsPeg q e → AsPeg (.many0 u (.regex q)) (.star (.guard u.isMatch e))
  | many1If (u : Neu ι) {q e} : AsPeg q e → AsPeg (.many1 u (.regex q)) (.plus (.guard u.isMatch e))
  | optUIf (u : Neu ι) {q e} : AsPeg q e → AsPeg (.optU u (.regex q)) (.opt (.guard u.isMatch e))
  | betweenIf (u : Neu ι) (m n) {q e} : u.Fair → m ≤ n → m ≤ 1 ∨ e.halts = true → AsPeg q e →
      AsPeg (.between m n u (.regex q)) (.rep (.guard u.isMatch e) m (some n))
  | timesIf (u : Neu ι) (r m n) {q e} : u.Fair → Counts r m n → m ≤ 1 ∨ e.halts = true → AsPeg q e →
      AsPeg (.times r u (.regex q)) (.rep (.guard u.isMatch e) m n)
  | thenUIf (u v : Neu ι) {q e} : u.Fair → v.Fair → e.halts = true → AsPeg q e →
      AsPeg (.thenU u v (.regex q)) (.seq (.guard u.isMatch e) (.guard v.isMatch e))
  | cell (i) : AsPeg (.cell i) (.nt i)
  | map {p e} (f) : AsPeg p e → AsPeg (.map p f) e
  | pat {p e} : AsPeg p e → AsPeg (.pat p) e
  | thn {a b ea eb} : AsPeg a ea → AsPeg b eb → AsPeg (.thn a b) (.seq ea eb)
  | pre {a b ea eb} : AsPeg a ea → AsPeg b eb → AsPeg (.pre a b) (.seq ea eb)
  | suf {a b ea eb} : AsPeg a ea → AsPeg b eb → AsPeg (.suf a b) (.seq ea eb)
  | enclose {a b c ea eb ec} : AsPeg a ea → AsPeg b eb → AsPeg c ec →
      AsPeg (.enclose a b c) (.seq ea (.seq eb ec))
  | sepOnce {a b c ea eb ec} : AsPeg a ea → AsPeg b eb → AsPeg c ec →
      AsPeg (.sepOnce a b c) (.seq ea (.seq eb ec))
  | ifThen {a t b ea et eb} : AsPeg a ea → AsPeg t et → AsPeg b eb →
      AsPeg (.ifThen a t b) (.seq ea (.alt (.seq et eb) (.not et)))
  | or {a b ea eb} : AsPeg a ea → AsPeg b eb → AsPeg (.or a b) (.alt ea eb)
  | opt {p e} : AsPeg p e → AsPeg (.opt p) (.opt e)
  | isnt {p e} : AsPeg p e → AsPeg (.assert p false) (.not e)
  | is {p e} : AsPeg p e → AsPeg (.assert p true) (.and e)
  | choice_nil (er) : AsPeg (.choice er []) .fail
  | choice_cons (er) {p e v items es} : AsPeg p e → AsPeg (.choice er items) es →
      AsPeg (.choice er ((p, v) :: items)) (.alt e es)
  | rep {p e} (r m n) : AsPeg p e → Counts r m n → AsPeg (.rep p r) (.rep e m n)
  | collect {p e} (m) : AsPeg p e → AsPeg (.collect p m) (.rep e m none)
  | rep2 {p e} (m n) : AsPeg p e → m ≤ n → AsPeg (.rep2 p m n) (.seq (.rep e m (some n)) (.not e))
  | sep {p s e es} (min) : AsPeg p e → AsPeg s es → AsPeg (.sep p s true min) (.list e es min)
  | sepCollect {p s e es} (min) : AsPeg p e → AsPeg s es →
      AsPeg (.sepCollect p s true min) (.list e es min)

/-- The rules and the grammar agree, nonterminal by nonterminal; a handle that
was never given a pattern fails. -/
def RulesAsPeg (G : Rules ι β) (R : Nat → Peg ι) : Prop :=
  ∀ i, (∃ q, G i = some q ∧ AsPeg q (R i)) ∨ (G i = none ∧ R i = .fail)

end Neure
