import Verif.Spec
import Verif.CtorSpec
/-!
# Specification: what an error means

Which pattern an error value comes from.  `Own` lists, for every kind of pattern, the
errors it makes up itself; `Speaks` says whose errors it hands on unchanged.
-/

namespace Neure

variable {ι β σ : Type} [Item ι]

/-- "`OutOfBound`", said of a position that is not one. -/
def Off (d : List ι) (o : Nat) (e : Error) : Prop := e = .outOfBound ∧ ¬ Valid d o

/-- The user's condition of a unit fails with `e`, asked at `o`. -/
def Cond.Says (d : List ι) (o : Nat) (e : Error) : Cond ι β → Prop
  | .fn f => ∃ pr, f d o pr = .err e
  | _ => False

/-- The errors a pattern makes up itself when it is tried at `o`. -/
def Own (G : Rules ι β) (d : List ι) (o : Nat) (e : Error) : Pat ι β → Prop
  | .fail => e = .fail
  | .start => e = .anchorStart
  | .anchorEnd => e = .anchorEnd
  | .consume _ => e = .consume
  | .lit _ => e = .literal ∨ Off d o e
  | .once _ c => e = .once ∨ Off d o e ∨ c.Says d o e
  | .many1 _ c => e = .many1 ∨ Off d o e ∨ c.Says d o e
  | .between _ _ _ c => e = .between ∨ Off d o e ∨ c.Says d o e
  | .times _ _ c => e = .times ∨ Off d o e ∨ c.Says d o e
  | .thenU _ _ c => e = .neureThen ∨ Off d o e ∨ c.Says d o e
  | .optU _ c | .many0 _ c => c.Says d o e
  | .assert _ true => e = .assertTrue
  | .assert _ false => e = .assertFalse
  | .choice e' _ | .ltm e' _ => e = e'
  | .rep _ _ => e = .repeat_
  | .rep2 _ _ _ => e = .repeat2
  | .collect _ _ => e = .collect
  | .sep _ _ _ _ => e = .separate
  | .sep2 _ _ _ _ _ => e = .separate2
  | .sepCollect _ _ _ _ => e = .sepCollect
  | .native f => ∃ o', f d o = .err e o'
  | .branch t _ _ => t d o = .err e
  | .build _ f => ∃ o₁ s o', f d o₁ s = .err e o'
  | .cell i => G i = none ∧ e = .option
  | .empty | .consumeAll | .thn _ _ | .ifThen _ _ _ | .pre _ _ | .suf _ _ | .enclose _ _ _ | .sepOnce _ _ _
  | .or _ _ | .longest _ _ | .opt _ | .map _ _ | .pat _ | .dthen _ _ => False

/-- The error was chosen by the user: it comes from their code, or was given to an array or
vector of alternatives. -/
def Chosen (d : List ι) (o : Nat) (e : Error) : Pat ι β → Prop
  | .once _ c | .many1 _ c | .between _ _ _ c | .times _ _ c | .thenU _ _ c | .optU _ c | .many0 _ c => c.Says d o e
  | .choice e' _ | .ltm e' _ => e = e'
  | .native f => ∃ o', f d o = .err e o'
  | .branch t _ _ => t d o = .err e
  | .build _ f => ∃ o₁ s o', f d o₁ s = .err e o'
  | _ => False

/-- `Speaks G q p`: an error of the part `q` may become the error of `p`, unchanged.  Of two
alternatives only the last one speaks; tests, optional parts, elements and separators of
lists and the alternatives of an array or vector never do. -/
def Speaks (G : Rules ι β) (q : Pat ι β) : Pat ι β → Prop
  | .thn a b | .pre a b | .suf a b | .branch _ a b => q = a ∨ q = b
  | .ifThen a _ b => q = a ∨ q = b
  | .enclose a b c | .sepOnce a b c => q = a ∨ q = b ∨ q = c
  | .or _ b | .longest _ b => q = b
  | .map p _ | .pat p => q = p
  | .build p f => q = p ∨ ∃ d o s o', f d o s = .ok q o'
  | .cell i => G i = some q
  | _ => False

/-- `Cause G d K pol p o e`: trying `p` at `o` fails with `e` because some pattern inside `p`
failed with this error, its own, at a position in `K`; on the way up to `p` everybody
handed it on.  Inside a context with a policy, it may be the policy that failed. -/
inductive Cause (G : Rules ι β) (d : List ι) (K : Nat → Prop) : Option (Pat ι β) → Pat ι β → Nat → Error → Prop where
  | own {pol p o e o'} : Own G d o e p → Parses G pol d p o (.err e o') → Cause G d K pol p o e
  | part {pol p q o o₁ e} : Speaks G q p → K o₁ → Cause G d K pol q o₁ e → Cause G d K pol p o e
  | skip {k p q o o₁ e} : Speaks G q p → (∀ i, p ≠ .cell i) → K o₁ → Cause G d K none k o₁ e →
      Cause G d K (some k) p o e

/-- The cause of an error of `ctx.try_mat(p)` at `o`. -/
def Explained (G : Rules ι β) (d : List ι) (K : Nat → Prop) (pol : Option (Pat ι β)) (p : Pat ι β) (o : Nat) (e : Error) : Prop :=
  (∃ o₁, K o₁ ∧ Cause G d K pol p o₁ e) ∨ ∃ k, pol = some k ∧ Cause G d K none k o e

/-- `q` is reached from `p`, or from the policy. -/
def Reached (G : Rules ι β) (pol : Option (Pat ι β)) (p q : Pat ι β) : Prop :=
  Desc G p q ∨ ∃ k, pol = some k ∧ Desc G k q

/-- The errors `construct` makes up itself: those of the lists and alternatives, of the test
of a branch, of an empty handle, of a mapper and of the closure of `dyn_then_ctor`. -/
def COwn (G : Rules ι β) (d : List ι) (o : Nat) (e : Error) : Pat ι β → Prop
  | .choice e' _ | .ltm e' _ => e = e'
  | .rep _ _ => e = .repeat_
  | .rep2 _ _ _ => e = .repeat2
  | .collect _ _ => e = .collect
  | .sep _ _ _ _ => e = .separate
  | .sep2 _ _ _ _ _ => e = .separate2
  | .sepCollect _ _ _ _ => e = .sepCollect
  | .branch t _ _ => t d o = .err e
  | .map _ f => ∃ v, f v = .err e
  | .dthen _ f => ∃ o₁ v o', f d o₁ v = .err e o'
  | .cell i => G i = none ∧ e = .option
  | _ => False

/-- The parts that are constructed and whose errors are handed on. -/
def CSpeaks (G : Rules ι β) (q : Pat ι β) : Pat ι β → Prop
  | .thn a b | .branch _ a b | .ifThen a _ b | .sepOnce a _ b => q = a ∨ q = b
  | .pre _ b => q = b
  | .suf a _ => q = a
  | .enclose _ b _ => q = b
  | .or _ b | .longest _ b => q = b
  | .map p _ => q = p
  | .dthen p f => q = p ∨ ∃ d o v o', f d o v = .ok q o'
  | .cell i => G i = some q
  | _ => False

/-- The parts that are matched and whose errors are handed on; a pattern that is handed to the
handler as a whole is matched itself. -/
def MSpeaks (q : Pat ι β) : Pat ι β → Prop
  | .pre a _ => q = a
  | .suf _ b => q = b
  | .enclose a _ c => q = a ∨ q = c
  | .sepOnce _ b _ => q = b
  | .pat p => q = p
  | .thn _ _ | .branch _ _ _ | .ifThen _ _ _ | .or _ _ | .longest _ _ | .map _ _ | .dthen _ _ | .cell _
  | .opt _ | .choice _ _ | .ltm _ _ | .rep _ _ | .rep2 _ _ _ | .collect _ _ | .sep _ _ _ _
  | .sep2 _ _ _ _ _ | .sepCollect _ _ _ _ => False
  | p => q = p

/-- The patterns whose match is handed to the handler. -/
def Handed (q : Pat ι β) : Pat ι β → Prop
  | .pre _ _ | .suf _ _ | .enclose _ _ _ | .sepOnce _ _ _ => False
  | p => MSpeaks q p

/-- The cause of an error of `construct`: additionally the handler may have failed, on a text
that had been matched. -/
inductive CCause (G : Rules ι β) (H : Handler ι β σ) (pol : Option (Pat ι β)) (d : List ι) (K : Nat → Prop) :
    Pat ι β → Nat → Error → Prop where
  | own {p o e st st' o'} : COwn G d o e p → Constructs G H pol d p st o (.err e st' o') → CCause G H pol d K p o e
  | handler {p q o e s o' st st'} : Handed q p → Runs G pol d q o (.ok s o') → H d o' s st = (.err e, st') →
      CCause G H pol d K p o e
  | part {p q o o₁ e} : CSpeaks G q p → K o₁ → CCause G H pol d K q o₁ e → CCause G H pol d K p o e
  | delim {p q o o₁ e} : MSpeaks q p → K o₁ → Cause G d K pol q o₁ e → CCause G H pol d K p o e
  | skip {p q k o o₁ e} : MSpeaks q p → pol = some k → K o₁ → Cause G d K none k o₁ e → CCause G H pol d K p o e

/-- The patterns in `S` only reach positions in `K` from positions in `K`. -/
structure KeptIn (G : Rules ι β) (pol : Option (Pat ι β)) (d : List ι) (K : Nat → Prop) (S : Pat ι β → Prop) : Prop where
  parts : ∀ {p q}, S p → Speaks G q p → S q
  test : ∀ {a t b}, S (.ifThen a t b) → S t
  moves : ∀ {p o s o'}, S p → K o → Runs G pol d p o (.ok s o') → K o'
  builds : ∀ {p f o s q o'}, S (.build p f) → K o → f d o s = .ok q o' → K o'

/-- The same for constructing the patterns in `S`, and for what they match. -/
structure CKeptIn (G : Rules ι β) (H : Handler ι β σ) (pol : Option (Pat ι β)) (d : List ι) (K : Nat → Prop)
    (S : Pat ι β → Prop) : Prop where
  parts : ∀ {p q}, S p → CSpeaks G q p → S q
  moves : ∀ {p st o v st' o'}, S p → K o → Constructs G H pol d p st o (.ok v st' o') → K o'
  delims : ∀ {p q}, S p → MSpeaks q p → ∃ S', KeptIn G pol d K S' ∧ S' q
  test : ∀ {a t b o s o'}, S (.ifThen a t b) → K o → Runs G pol d t o (.ok s o') → K o'
  builds : ∀ {p f o v q o'}, S (.dthen p f) → K o → f d o v = .ok q o' → K o'

end Neure
