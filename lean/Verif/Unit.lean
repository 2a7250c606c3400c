import Verif.Range
/-!
# Units (`Neu`): `src/neu.rs`, `src/neu/op_*.rs`, `src/neu/bool.rs`, `src/neu/equal.rs`
-/

namespace Neure

variable {ι : Type} [Item ι]

/-- Units.  Wrappers (`Box`, `Rc`, `Arc`, `Cell`, `RefCell`, `Mutex`,
`src/neu.rs:148-253`) only delegate and are not represented.  `Prefix` is
stateful and modelled in `Verif/Prefix.lean`. -/
inductive Neu (ι : Type) where
  /-- `char` (`src/neu.rs:129-135`) and `u8` (`src/neu.rs:144-146`). -/
  | item (x : ι)
  /-- `equal(v)` (`src/neu/equal.rs:24-32`); default `min_length`. -/
  | equal (x : ι)
  /-- closures (`src/neu.rs:116-120`) and the std predicates of
  `src/neu/units.rs`; default `min_length`. -/
  | pred (f : ι → Bool)
  /-- arrays, slices, vectors (`src/neu.rs:274, 298, 328`). -/
  | mem (l : List ι)
  /-- ranges and bound pairs (`src/neu.rs:355-657`, `src/neu/range.rs:106-113`). -/
  | range (r : CRange)
  /-- `src/neu/bool.rs:46-48` `Always`. -/
  | always
  /-- `src/neu/bool.rs:106-108` `Never`. -/
  | never
  /-- `src/neu/op_not.rs`. -/
  | not (u : Neu ι)
  /-- `src/neu/op_and.rs`. -/
  | and (u v : Neu ι)
  /-- `src/neu/op_or.rs`. -/
  | or (u v : Neu ι)

/-- `Neu::is_match`; lines as cited at the constructors, operators
`src/neu/op_not.rs:105-109`, `src/neu/op_and.rs:149-153`,
`src/neu/op_or.rs:148-152`. -/
def Neu.isMatch : Neu ι → ι → Bool
  | .item a, x => decide (a = x)
  | .equal a, x => decide (a = x)
  | .pred f, x => f x
  | .mem l, x => l.contains x
  | .range r, x => r.contains (Item.key x)
  | .always, _ => true
  | .never, _ => false
  | .not u, x => !(u.isMatch x)
  | .and u v, x => u.isMatch x && v.isMatch x
  | .or u v, x => u.isMatch x || v.isMatch x

/-- `Neu::min_length`: default 1 (`src/neu.rs:105-107`), `char`
`src/neu.rs:133-135`, `Not` `src/neu/op_not.rs:111-113` (that of the negated
unit), `And` `src/neu/op_and.rs:155-157`, `Or` `src/neu/op_or.rs:154-156`. -/
def Neu.minLength : Neu ι → Nat
  | .item a => Item.size a
  | .not u => u.minLength
  | .and u v => max u.minLength v.minLength
  | .or u v => min u.minLength v.minLength
  | _ => 1

end Neure
