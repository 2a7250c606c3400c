import Verif.Ctor
/-!
# Boxes, pointers, cells and adapters around a pattern
(`src/regex.rs:105-247`, `src/ctor.rs:137-293`, `src/regex/adapter.rs`,
`src/ctor/adapter.rs`, `src/regex/into.rs`, `src/ctor/into.rs`)
-/

namespace Neure

variable {ι β σ : Type} [Item ι]

/-- Containers that forward `try_parse` and `construct` to their content. -/
inductive Pointer where
  /-- `Rc<P>`, `Arc<P>`: `src/regex.rs:139-141`, `src/ctor.rs:203-205`. -/
  | rc | arc
  /-- `Cell<P>`: `src/regex.rs:237-244`, `src/ctor.rs:284-291`. -/
  | cell
  /-- `Box/Rc/Arc<dyn Ctor>`: `src/regex.rs:143-197`, `src/ctor.rs:207-231`. -/
  | boxDynCtor | rcDynCtor | arcDynCtor
  /-- `ctor::Adapter`, `ctor::BoxAdapter`, `ctor::DynRefAdapter` (`into_box`, `into_rc`,
  `into_dyn`, … and `as_dyn_ctor`): `src/ctor/adapter.rs:582-600, 620-630, 676-693`. -/
  | ctorAdapter | ctorBox | ctorDynRef

/-- Containers that forward `try_parse`; their `construct` matches themselves and calls
the handler. -/
inductive RegexPointer where
  /-- `regex::Adapter`, `regex::RefAdapter`, `regex::DynRefAdapter`, `regex::BoxAdapter`
  (`into_ctor`, `as_ctor`, `as_dyn_regex`, `into_box_regex`, `into_dyn_regex`, …):
  `src/regex/adapter.rs:456-478, 504-524, 545-561, 612-632`. -/
  | adapter | refAdapter | dynRef | box
  /-- `Box/Rc<dyn Regex>`, `src/regex.rs:143-191`, through `as_ctor`,
  `src/ctor.rs:169-193`. -/
  | boxDynRegex | rcDynRegex

/-- A pattern in containers. -/
inductive Wrapped (ι β σ : Type) where
  | of (p : Pat ι β)
  | ptr (k : Pointer) (w : Wrapped ι β σ)
  | regex (k : RegexPointer) (w : Wrapped ι β σ)
  /-- `Some(p)`, `None` as patterns: `src/regex.rs:225`, `src/ctor.rs:273`. -/
  | some (w : Wrapped ι β σ)
  | none
  /-- `RefCell<P>`: `src/regex.rs:227`, `src/ctor.rs:275`; `borrowed`: somebody holds a
  `borrow_mut()`. -/
  | refCell (borrowed : Bool) (w : Wrapped ι β σ)
  /-- `Mutex<P>`, not held by anybody: `src/regex.rs:229-234`, `src/ctor.rs:277-282`;
  `poisoned`: a thread panicked while it held the lock. -/
  | mutex (poisoned : Bool) (w : Wrapped ι β σ)
  /-- `Adapter::func(f)`: `src/ctor/adapter.rs:142-159, 202-208`. -/
  | func (f : List ι → σ → Nat → CRes σ (Val β))

/-- `w.try_parse(ctx)`, with fuel for the pattern inside; the functions cited at
`Wrapped`. -/
def Wrapped.parse (G : Rules ι β) (n : Nat) (pol : Option (Pat ι β)) (d : List ι) :
    Wrapped ι β σ → Nat → Option (Res Span)
  | .of p, o => Neure.parse G n pol d p o
  | .ptr _ w, o => w.parse G n pol d o
  | .regex _ w, o => w.parse G n pol d o
  | .some w, o => w.parse G n pol d o
  | .none, o => .some (.err .option o)
  | .refCell b w, o => if b then .some .panic else w.parse G n pol d o
  | .mutex b w, o => if b then .some (.err .mutex o) else w.parse G n pol d o
  | .func _, _ => .some .panic

/-- `ctx.try_mat(w)`: `src/ctx/regex.rs:443-448`, `src/ctx/policy.rs:154-160`. -/
def Wrapped.mat (G : Rules ι β) (n : Nat) (pol : Option (Pat ι β)) (d : List ι) (w : Wrapped ι β σ) (o : Nat) :
    Option (Res Span) :=
  match pol with
  | Option.none => w.parse G n Option.none d o
  | Option.some q =>
    caseR (Neure.parse G n Option.none d q o) (fun _ o' => w.parse G n pol d o') (fun e o' => Option.some (.err e o'))

/-- `w.construct(ctx, handler)`; the functions cited at `Wrapped`. -/
def Wrapped.con (G : Rules ι β) (H : Handler ι β σ) (n : Nat) (pol : Option (Pat ι β)) (d : List ι) :
    Wrapped ι β σ → σ → Nat → Option (CRes σ (Val β))
  | .of p, st, o => Neure.con G H n pol d p st o
  | .ptr _ w, st, o => w.con G H n pol d st o
  | .regex k w, st, o => invokeK H d st ((Wrapped.regex k w).mat G n pol d o)
  | .some w, st, o => w.con G H n pol d st o
  | .none, st, o => .some (.err .option st o)
  | .refCell b w, st, o => if b then .some .panic else w.con G H n pol d st o
  | .mutex b w, st, o => if b then .some (.err .mutex st o) else w.con G H n pol d st o
  | .func f, st, o => .some (f d st o)

end Neure
