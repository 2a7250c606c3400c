import Verif.Ctor
/-!
# `rec_parser_sync`: recursive handles behind a mutex

`src/regex/rec.rs:45-59` builds an `Arc<Mutex<Option<…>>>`.  Using the handle as
a pattern locks the mutex and keeps the guard while the content runs
(`src/regex.rs:231-235`, `src/ctor.rs:277-282`).  `std::sync::Mutex` is not
re-entrant: a second `lock` by the same thread does not return (its
documentation leaves open whether it blocks or panics; here it never returns).
Everything runs on one thread; `held` are the handles locked by the calls in
progress.  Poisoning (`Error::Mutex`) needs an earlier panic: `Poison.lean`.
-/

namespace Neure

variable {ι β σ : Type} [Item ι]

/-- `p.try_parse(ctx)` where handles come from `rec_parser_sync`:
`src/regex.rs:231-235` for the handles, everything else as in `step`. -/
def parseSync (G : Rules ι β) :
    Nat → List Nat → Option (Pat ι β) → List ι → Pat ι β → Nat → Option (Res Span)
  | 0 => fun _ _ _ _ _ => none
  | n + 1 => fun held pol d p o =>
    match p with
    | .cell i =>
      if i ∈ held then none
      else match G i with
        | none => some (.err .option o)
        | some q => parseSync G n (i :: held) pol d q o
    | p => step G n (matWith (parseSync G n held) pol) (parseSync G n held pol d) d p o

/-- `ctx.try_mat(&p)` with such handles. -/
def tryMatSync (G : Rules ι β) (n : Nat) (held : List Nat) (pol : Option (Pat ι β)) (d : List ι)
    (p : Pat ι β) (o : Nat) : Option (Res Span) := matWith (parseSync G n held) pol d p o

/-- `p.construct(ctx, handler)` with such handles: `src/ctor.rs:277-282`. -/
def conSync (G : Rules ι β) (H : Handler ι β σ) :
    Nat → List Nat → Option (Pat ι β) → List ι → Pat ι β → σ → Nat → Option (CRes σ (Val β))
  | 0 => fun _ _ _ _ _ _ => none
  | n + 1 => fun held pol d p st o =>
    match p with
    | .cell i =>
      if i ∈ held then none
      else match G i with
        | none => some (.err .option st o)
        | some q => conSync G H n (i :: held) pol d q st o
    | p => conStep G H n (tryMatSync G n held pol d) (tryMatSync G (n + 1) held pol d p o)
        (conSync G H n held pol d) d p st o

/-- `p.try_parse(ctx)` returns `r`, no handle being in use at the start. -/
def ParsesSync (G : Rules ι β) (pol : Option (Pat ι β)) (d : List ι) (p : Pat ι β) (o : Nat)
    (r : Res Span) : Prop := ∃ n, parseSync G n [] pol d p o = some r

/-- `ctx.try_mat(&p)` returns `r`, no handle being in use at the start. -/
def RunsSync (G : Rules ι β) (pol : Option (Pat ι β)) (d : List ι) (p : Pat ι β) (o : Nat)
    (r : Res Span) : Prop := ∃ n, tryMatSync G n [] pol d p o = some r

/-- `ctx.ctor_handler(&p, handler)` returns `r`, no handle being in use at the start. -/
def ConstructsSync (G : Rules ι β) (H : Handler ι β σ) (pol : Option (Pat ι β)) (d : List ι)
    (p : Pat ι β) (st : σ) (o : Nat) (r : CRes σ (Val β)) : Prop :=
  ∃ n, conSync G H n [] pol d p st o = some r

end Neure
