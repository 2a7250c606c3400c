import Verif.Imp
import Verif.CtorTerm
/-!
# Counting calls

The bodies of `Imp.lean` run over a handler state with a counter beside it.  Every
call of a pattern's `try_parse` or `construct` adds one; what happens inside a
primitive pattern between two such calls (comparing items) is not counted.
-/

namespace Neure

variable {ι β σ α : Type} [Item ι]

/-- One call: the counter beside the handler's state goes up by one. -/
def tick : M (σ × Nat) Unit := fun st o => some (.done () (st.1, st.2 + 1) o)

/-- `p.try_parse(ctx)`, counting. -/
def workParse (G : Rules ι β) : Nat → Option (Pat ι β) → List ι → Pat ι β → M (σ × Nat) (Except Error Span)
  | 0 => fun _ _ _ _ _ => none
  | n + 1 => fun pol d p => do
    tick
    impStep G n (impMat (workParse G n) pol) (workParse G n pol d) d p

/-- `ctx.try_mat(&p)`, counting. -/
def workMat (G : Rules ι β) (n : Nat) (pol : Option (Pat ι β)) (d : List ι) (p : Pat ι β) :
    M (σ × Nat) (Except Error Span) := impMat (workParse G n) pol d p

/-- The handler does not see the counter. -/
def Handler.beside (H : Handler ι β σ) : Handler ι β (σ × Nat) := fun d o s st =>
  ((H d o s st.1).1, (H d o s st.1).2, st.2)

/-- `p.construct(ctx, handler)`, counting.  A primitive pattern's `construct` calls
`ctx.try_mat(self)`. -/
def workCon (G : Rules ι β) (H : Handler ι β σ) :
    Nat → Option (Pat ι β) → List ι → Pat ι β → M (σ × Nat) (Except Error (Val β))
  | 0 => fun _ _ _ _ _ => none
  | n + 1 => fun pol d p => do
    tick
    impConStep G H.beside n (workMat G n pol d) (workMat G (n + 1) pol d p) (workCon G H n pol d) d p

/-- `ctx.try_mat(&p)` at offset `o` returns `r`, leaves the context at `o'` and makes `c`
calls on the way. -/
def RunsWork (G : Rules ι β) (pol : Option (Pat ι β)) (d : List ι) (p : Pat ι β) (o : Nat)
    (r : Except Error Span) (o' c : Nat) : Prop :=
  ∃ n, workMat G n pol d p ((), 0) o = some (.done r ((), c) o')

/-- `ctx.ctor_handler(&p, handler)` from handler state `st` at offset `o` returns `r`,
leaves the handler in `st'`, the context at `o'`, and makes `c` calls on the way. -/
def ConstructsWork (G : Rules ι β) (H : Handler ι β σ) (pol : Option (Pat ι β)) (d : List ι)
    (p : Pat ι β) (st : σ) (o : Nat) (r : Except Error (Val β)) (st' : σ) (o' c : Nat) : Prop :=
  ∃ n, workCon G H n pol d p (st, 0) o = some (.done r (st', c) o')

/-! ## A bound read off the pattern -/

/-- Primitive patterns without a condition. -/
def Plain : Pat ι β → Prop
  | .empty | .fail | .start | .anchorEnd | .consume _ | .consumeAll | .lit _ | .native _ => True
  | _ => False

/-- The condition of a pattern that tests items one by one. -/
def condOf : Pat ι β → Option (Cond ι β)
  | .once _ c | .many1 _ c | .optU _ c | .many0 _ c | .between _ _ _ c | .times _ _ c
  | .thenU _ _ c => some c
  | _ => none

/-- The most rounds a counted repetition can make. -/
def CRange.most : CRange → Option Nat
  | ⟨_, .incl n⟩ => some n
  | ⟨_, .excl n⟩ => some n
  | ⟨_, .unb⟩ => none

/-- `CallsAtMost G eats e L p w`: read off `p`, matching or constructing `p` on a text of at
most `L` bytes makes at most `w` calls (its own included), if one skip of the policy makes at
most `e` and the patterns in `eats` consume whenever they succeed.  A sequence or a choice adds
its parts; a loop multiplies by the number of rounds, which is at most one more than the number
of bytes, or by the upper bound of the repetition and at most two more.  There is no rule for a recursive
handle other than unfolding it. -/
inductive CallsAtMost (G : Rules ι β) (eats : Pat ι β → Prop) (e L : Nat) : Pat ι β → Nat → Prop where
  | mono {p w w'} : CallsAtMost G eats e L p w → w ≤ w' → CallsAtMost G eats e L p w'
  | plain {p} : Plain p → CallsAtMost G eats e L p (e + 2)
  | plainUnit {p c} : condOf p = some c → (∀ q, ¬ c.Has q) → CallsAtMost G eats e L p (e + 2)
  | unit {p c w} : condOf p = some c → (∀ q, c.Has q → CallsAtMost G eats e L q w) →
      CallsAtMost G eats e L p (e + 2 + (L + 2) * (e + w))
  | assert {q v w} : CallsAtMost G eats e L q w → CallsAtMost G eats e L (.assert q v) (e + 2 + (e + w))
  | build {q f x y} : CallsAtMost G eats e L q x →
      (∀ d o s q' o', f d o s = .ok q' o' → CallsAtMost G eats e L q' y) →
      CallsAtMost G eats e L (.build q f) (e + 2 + (e + x) + (e + y))
  | thn {a b x y} : CallsAtMost G eats e L a x → CallsAtMost G eats e L b y →
      CallsAtMost G eats e L (.thn a b) (1 + (e + x) + (e + y))
  | pre {a b x y} : CallsAtMost G eats e L a x → CallsAtMost G eats e L b y →
      CallsAtMost G eats e L (.pre a b) (1 + (e + x) + (e + y))
  | suf {a b x y} : CallsAtMost G eats e L a x → CallsAtMost G eats e L b y →
      CallsAtMost G eats e L (.suf a b) (1 + (e + x) + (e + y))
  | or {a b x y} : CallsAtMost G eats e L a x → CallsAtMost G eats e L b y →
      CallsAtMost G eats e L (.or a b) (1 + (e + x) + (e + y))
  | longest {a b x y} : CallsAtMost G eats e L a x → CallsAtMost G eats e L b y →
      CallsAtMost G eats e L (.longest a b) (1 + (e + x) + (e + y))
  | branch {t a b x y} : CallsAtMost G eats e L a x → CallsAtMost G eats e L b y →
      CallsAtMost G eats e L (.branch t a b) (1 + (e + x) + (e + y))
  | ifThen {a b c x y z} : CallsAtMost G eats e L a x → CallsAtMost G eats e L b y → CallsAtMost G eats e L c z →
      CallsAtMost G eats e L (.ifThen a b c) (1 + (e + x) + (e + y) + (e + z))
  | enclose {a b c x y z} : CallsAtMost G eats e L a x → CallsAtMost G eats e L b y → CallsAtMost G eats e L c z →
      CallsAtMost G eats e L (.enclose a b c) (1 + (e + x) + (e + y) + (e + z))
  | sepOnce {a b c x y z} : CallsAtMost G eats e L a x → CallsAtMost G eats e L b y → CallsAtMost G eats e L c z →
      CallsAtMost G eats e L (.sepOnce a b c) (1 + (e + x) + (e + y) + (e + z))
  | opt {q x} : CallsAtMost G eats e L q x → CallsAtMost G eats e L (.opt q) (1 + (e + x))
  | map {q f x} : CallsAtMost G eats e L q x → CallsAtMost G eats e L (.map q f) (1 + (e + x))
  | pat {q x} : CallsAtMost G eats e L q x → CallsAtMost G eats e L (.pat q) (1 + (e + x))
  | dthen {q f x y} : CallsAtMost G eats e L q x →
      (∀ d o v q' o', f d o v = .ok q' o' → CallsAtMost G eats e L q' y) →
      CallsAtMost G eats e L (.dthen q f) (1 + (e + x) + (e + y))
  | choice {err items x} : (∀ it ∈ items, CallsAtMost G eats e L it.1 x) →
      CallsAtMost G eats e L (.choice err items) (1 + items.length * (e + x))
  | ltm {err items x} : (∀ it ∈ items, CallsAtMost G eats e L it.1 x) →
      CallsAtMost G eats e L (.ltm err items) (1 + items.length * (e + x))
  | repMost {q r n x} : r.most = some n → CallsAtMost G eats e L q x →
      CallsAtMost G eats e L (.rep q r) (1 + (n + 1) * (e + x))
  | rep {q r x} : eats q → CallsAtMost G eats e L q x →
      CallsAtMost G eats e L (.rep q r) (1 + (L + 1) * (e + x))
  | rep2 {q m n x} : CallsAtMost G eats e L q x → CallsAtMost G eats e L (.rep2 q m n) (1 + (n + 2) * (e + x))
  | collect {q m x} : eats q → CallsAtMost G eats e L q x →
      CallsAtMost G eats e L (.collect q m) (1 + (L + 1) * (e + x))
  | sep {q s skip m x y} : eats q ∨ eats s → CallsAtMost G eats e L q x → CallsAtMost G eats e L s y →
      CallsAtMost G eats e L (.sep q s skip m) (1 + (L + 1) * (e + x + (e + y)))
  | sep2 {q s skip m n x y} : CallsAtMost G eats e L q x → CallsAtMost G eats e L s y →
      CallsAtMost G eats e L (.sep2 q s skip m n) (1 + (n + 2) * (e + x + (e + y)))
  | sepCollect {q s skip m x y} : eats q ∨ eats s → CallsAtMost G eats e L q x → CallsAtMost G eats e L s y →
      CallsAtMost G eats e L (.sepCollect q s skip m) (1 + (L + 2) * (e + x + (e + y)))
  | cell {i q x} : G i = some q → CallsAtMost G eats e L q x → CallsAtMost G eats e L (.cell i) (1 + x)
  | unset {i} : G i = none → CallsAtMost G eats e L (.cell i) 1

/-- Matching `q` stays between the present offset and the end of the text, and the closure of
a builder does not leave the text either. -/
def StaysIn (G : Rules ι β) (pol : Option (Pat ι β)) (q : Pat ι β) : Prop :=
  (∀ d, MovesForward G pol d q) ∧ match q with
    | .build _ f => ∀ d o s q' o', o ≤ blen d → f d o s = .ok q' o' → o' ≤ blen d
    | _ => True

/-- The skip pattern of the policy stays inside the text, and skipping once makes at most `e`
calls on texts of at most `L` bytes. -/
def SkipAtMost (G : Rules ι β) (pol : Option (Pat ι β)) (L e : Nat) : Prop :=
  ∀ w, pol = some w → All G (StaysIn G none) w ∧
    ∃ eats : Pat ι β → Prop, (∀ q, eats q → ∀ d, EatsIn G none d q) ∧ CallsAtMost G eats 0 L w e

/-- `LoopsNest G eats p k`: at most `k` loops are nested in `p`, and every unbounded one repeats
something that consumes.  A pattern tested as a condition of every item counts as a loop.
A counted repetition is none. -/
inductive LoopsNest (G : Rules ι β) (eats : Pat ι β → Prop) : Pat ι β → Nat → Prop where
  | mono {p k k'} : LoopsNest G eats p k → k ≤ k' → LoopsNest G eats p k'
  | plain {p} : Plain p → LoopsNest G eats p 0
  | plainUnit {p c} : condOf p = some c → (∀ q, ¬ c.Has q) → LoopsNest G eats p 0
  | unit {p q k} : condOf p = some (.regex q) → LoopsNest G eats q k → LoopsNest G eats p (k + 1)
  | assert {q v k} : LoopsNest G eats q k → LoopsNest G eats (.assert q v) k
  | thn {a b k} : LoopsNest G eats a k → LoopsNest G eats b k → LoopsNest G eats (.thn a b) k
  | pre {a b k} : LoopsNest G eats a k → LoopsNest G eats b k → LoopsNest G eats (.pre a b) k
  | suf {a b k} : LoopsNest G eats a k → LoopsNest G eats b k → LoopsNest G eats (.suf a b) k
  | or {a b k} : LoopsNest G eats a k → LoopsNest G eats b k → LoopsNest G eats (.or a b) k
  | longest {a b k} : LoopsNest G eats a k → LoopsNest G eats b k → LoopsNest G eats (.longest a b) k
  | branch {t a b k} : LoopsNest G eats a k → LoopsNest G eats b k → LoopsNest G eats (.branch t a b) k
  | ifThen {a b c k} : LoopsNest G eats a k → LoopsNest G eats b k → LoopsNest G eats c k →
      LoopsNest G eats (.ifThen a b c) k
  | enclose {a b c k} : LoopsNest G eats a k → LoopsNest G eats b k → LoopsNest G eats c k →
      LoopsNest G eats (.enclose a b c) k
  | sepOnce {a b c k} : LoopsNest G eats a k → LoopsNest G eats b k → LoopsNest G eats c k →
      LoopsNest G eats (.sepOnce a b c) k
  | opt {q k} : LoopsNest G eats q k → LoopsNest G eats (.opt q) k
  | map {q f k} : LoopsNest G eats q k → LoopsNest G eats (.map q f) k
  | pat {q k} : LoopsNest G eats q k → LoopsNest G eats (.pat q) k
  | choice {err items k} : (∀ it ∈ items, LoopsNest G eats it.1 k) → LoopsNest G eats (.choice err items) k
  | ltm {err items k} : (∀ it ∈ items, LoopsNest G eats it.1 k) → LoopsNest G eats (.ltm err items) k
  | repMost {q r n k} : r.most = some n → LoopsNest G eats q k → LoopsNest G eats (.rep q r) k
  | rep {q r k} : eats q → LoopsNest G eats q k → LoopsNest G eats (.rep q r) (k + 1)
  | rep2 {q m n k} : LoopsNest G eats q k → LoopsNest G eats (.rep2 q m n) k
  | collect {q m k} : eats q → LoopsNest G eats q k → LoopsNest G eats (.collect q m) (k + 1)
  | sep {q s skip m k} : eats q ∨ eats s → LoopsNest G eats q k → LoopsNest G eats s k →
      LoopsNest G eats (.sep q s skip m) (k + 1)
  | sep2 {q s skip m n k} : LoopsNest G eats q k → LoopsNest G eats s k → LoopsNest G eats (.sep2 q s skip m n) k
  | sepCollect {q s skip m k} : eats q ∨ eats s → LoopsNest G eats q k → LoopsNest G eats s k →
      LoopsNest G eats (.sepCollect q s skip m) (k + 1)
  | cell {i q k} : G i = some q → LoopsNest G eats q k → LoopsNest G eats (.cell i) k
  | unset {i} : G i = none → LoopsNest G eats (.cell i) 0

end Neure
