import Verif.Ctor
/-!
# When the rest of the text no longer matters (specification of C88)

The text of a context is all there is: `ctx.len()` is its end.  A program that reads its
input in pieces has only the first part of the text, and wants to know whether the result
it got is the result it would have got with the rest.

`Done mt d o p` says, of one pattern at one position, that the pattern itself does not ask
where the text ends: a literal is found or differs from the text before the end of the
text; a run of items is ended by an item that is not accepted, or by its upper bound, not
by the end of the text; a closure gives the same answer whatever follows.  Combinators ask
nothing themselves.  `parseS` is `try_parse` (`Match.lean`) that gives no answer when `Done`
fails for a pattern it comes to, in the pattern itself, in a condition or in the skip policy.
-/

namespace Neure

variable {ι β σ : Type} [Item ι]

/-- The condition answers the same whatever follows the text (only a closure might not: a
`regex_cond` is a pattern, for which `parseS` is used). -/
def Cond.Quiet (d : List ι) (o : Nat) : Cond ι β → Prop
  | .fn f => ∀ pr x, f (d ++ x) o pr = f d o pr
  | _ => True

/-- A scan that ended at an item or at its upper bound, not at the end of the text. -/
def Scan.Ended (more : Nat → Bool) (s : Scan ι) : Prop := s.stop ≠ none ∨ more s.cnt = false

/-- `p` itself, at `o`, does not ask where the text `d` ends. -/
def Done (mt : List ι → Pat ι β → Nat → Option (Res Span)) (d : List ι) (o : Nat) : Pat ι β → Prop
  | .anchorEnd => o < blen d
  | .consume n => o + n ≤ blen d
  | .consumeAll => False
  | .lit l => ∃ rest, dropB d o = some rest ∧ (l <+: rest ∨ ¬ rest <+: l)
  | .native f => ∀ x, f (d ++ x) o = f d o
  | .once _ c | .optU _ c => c.Quiet d o ∧ ∃ a rest, dropB d o = some (a :: rest)
  | .many0 u c | .many1 u c => c.Quiet d o ∧ ∃ rest, dropB d o = some rest ∧
      ∀ s, scan (testItem mt d o u c) (fun _ => true) 0 none (indices 0 rest) = some (.ok s) →
        s.Ended fun _ => true
  | .between m n u c => c.Quiet d o ∧ ∃ rest, dropB d o = some rest ∧
      ((m * u.minLength ≤ blen rest ∧ ∀ s, scan (testItem mt d o u c) (fun k => decide (k < n)) 0 none
          (indices 0 rest) = some (.ok s) → s.Ended fun k => decide (k < n)) ∨
        ∃ s, scan (testItem mt d o u c) (fun k => decide (k < n)) 0 none (indices 0 rest) = some (.ok s) ∧
          s.Ended (fun k => decide (k < n)) ∧ s.cnt < m)
  | .times r u c => c.Quiet d o ∧ ∃ rest, dropB d o = some rest ∧
      ((r.needed u.minLength ≤ blen rest ∧ ∀ s, scan (testItem mt d o u c) r.more 0 none
          (indices 0 rest) = some (.ok s) → s.Ended r.more) ∨
        ∃ s, scan (testItem mt d o u c) r.more 0 none (indices 0 rest) = some (.ok s) ∧
          s.Ended r.more ∧ r.contains s.cnt = false)
  | .thenU u v c => c.Quiet d o ∧
      ((∃ a b rest, dropB d o = some (a :: b :: rest) ∧
          (u.minLength + v.minLength ≤ blen (a :: b :: rest) ∨
            testItem mt d o u c (0, a) = some (.ok true) ∧
              testItem mt d o v c (Item.size a, b) = some (.ok false))) ∨
        ∃ a rest, dropB d o = some (a :: rest) ∧ testItem mt d o u c (0, a) = some (.ok false))
  | .branch t _ _ => ∀ x, t (d ++ x) o = t d o
  | .build q f => ∀ s o1, mt d q o = some (.ok s o1) → ∀ x, f (d ++ x) o1 s = f d o1 s
  | _ => True

open Classical in
/-- `p.try_parse(ctx)` (`parse`, `Match.lean`) that answers only as long as no pattern asks where
the text ends. -/
noncomputable def parseS (G : Rules ι β) : Nat → Option (Pat ι β) → List ι → Pat ι β → Nat → Option (Res Span)
  | 0 => fun _ _ _ _ => none
  | n + 1 => fun pol d p o =>
    if Done (matWith (parseS G n) pol) d o p then
      step G n (matWith (parseS G n) pol) (parseS G n pol d) d p o
    else none

/-- `ctx.try_mat(&p)` returns `r`, and nobody asked where the text ends. -/
def Settled (G : Rules ι β) (pol : Option (Pat ι β)) (d : List ι) (p : Pat ι β) (o : Nat) (r : Res Span) : Prop :=
  ∃ n, matWith (parseS G n) pol d p o = some r

/-- Whatever text follows, `ctx.try_mat(&p)` returns `r`. -/
def Final (G : Rules ι β) (pol : Option (Pat ι β)) (d : List ι) (p : Pat ι β) (o : Nat) (r : Res Span) : Prop :=
  ∀ x, Runs G pol (d ++ x) p o r

/-! ## Building values -/

/-- `construct` of `p` itself does not ask where the text ends: the handler, if it is called, and
the closures of `branch` and `dthen`, answer the same whatever follows. -/
def DoneC (H : Handler ι β σ) (mt : Pat ι β → Nat → Option (Res Span)) (leaf : Option (Res Span))
    (cn : Pat ι β → σ → Nat → Option (CRes σ (Val β))) (d : List ι) (st : σ) (o : Nat) : Pat ι β → Prop
  | .empty | .fail | .start | .anchorEnd | .consume _ | .consumeAll | .lit _ | .native _
  | .once _ _ | .many1 _ _ | .optU _ _ | .many0 _ _ | .between _ _ _ _ | .times _ _ _
  | .thenU _ _ _ | .assert _ _ | .build _ _ =>
    ∀ s o1, leaf = some (.ok s o1) → ∀ x, H (d ++ x) o1 s st = H d o1 s st
  | .pat q => ∀ s o1, mt q o = some (.ok s o1) → ∀ x, H (d ++ x) o1 s st = H d o1 s st
  | .branch t _ _ => ∀ x, t (d ++ x) o = t d o
  | .dthen q f => ∀ v st1 o1, cn q st o = some (.ok v st1 o1) → ∀ x, f (d ++ x) o1 v = f d o1 v
  | _ => True

open Classical in
/-- `p.construct(ctx, handler)` (`con`, `Ctor.lean`) that answers only as long as nobody asks
where the text ends. -/
noncomputable def conS (G : Rules ι β) (H : Handler ι β σ) :
    Nat → Option (Pat ι β) → List ι → Pat ι β → σ → Nat → Option (CRes σ (Val β))
  | 0 => fun _ _ _ _ _ => none
  | n + 1 => fun pol d p st o =>
    if DoneC H (matWith (parseS G n) pol d) (matWith (parseS G (n + 1)) pol d p o) (conS G H n pol d) d st o p then
      conStep G H n (matWith (parseS G n) pol d) (matWith (parseS G (n + 1)) pol d p o) (conS G H n pol d) d p st o
    else none

/-- `ctx.ctor_handler(&p, handler)` returns `r`, and nobody asked where the text ends. -/
def SettledC (G : Rules ι β) (H : Handler ι β σ) (pol : Option (Pat ι β)) (d : List ι) (p : Pat ι β)
    (st : σ) (o : Nat) (r : CRes σ (Val β)) : Prop := ∃ n, conS G H n pol d p st o = some r

/-- Whatever text follows, `ctx.ctor_handler(&p, handler)` returns `r`. -/
def FinalC (G : Rules ι β) (H : Handler ι β σ) (pol : Option (Pat ι β)) (d : List ι) (p : Pat ι β)
    (st : σ) (o : Nat) (r : CRes σ (Val β)) : Prop := ∀ x, Constructs G H pol (d ++ x) p st o r

end Neure
