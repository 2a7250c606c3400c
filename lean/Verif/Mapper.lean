import Verif.Data
/-!
# Mappers: `src/map.rs`

A mapper is a function from a value to `Result<_, Error>`; `Out.panic` is never
produced by the mappers of the crate.  `FromStr`, `TryFrom`, … of std and of user
types are parameters.
-/

namespace Neure

/-- `FallibleMap::try_map`, `src/map.rs:11`. -/
abbrev Mapper (α γ : Type) := α → Out γ

/-- `FuncMapper`, `src/map.rs:36-43`. -/
def funcMapper {α γ : Type} (f : α → γ) : Mapper α γ := fun v => .ok (f v)

/-- `Select0`, `src/map.rs:57-61`. -/
def select0 {α γ : Type} : Mapper (α × γ) α := fun v => .ok v.1

/-- `Select1`, `src/map.rs:77-81`. -/
def select1 {α γ : Type} : Mapper (α × γ) γ := fun v => .ok v.2

/-- `SelectEq`, `src/map.rs:97-108`; `eq` is the `PartialEq` of the two types. -/
def selectEq {α γ : Type} (eq : α → γ → Bool) : Mapper (α × γ) (α × γ) :=
  fun v => if eq v.1 v.2 then .ok v else .err .selectEq

/-- `SelectNeq`, `src/map.rs:124-135`. -/
def selectNeq {α γ : Type} (eq : α → γ → Bool) : Mapper (α × γ) (α × γ) :=
  fun v => if !eq v.1 v.2 then .ok v else .err .selectNeq

/-- `FromStr`, `src/map.rs:166-175` and `FromStrRadix`, `:328-337`; `parse` is the
type's `FromStr::from_str` (`from_str_radix`), `none` for its error. -/
def fromStr {α γ : Type} (parse : α → Option γ) : Mapper α γ := fun v =>
  match parse v with
  | some x => .ok x
  | none => .err .fromStr

/-- `IntoMapper`, `src/map.rs:209-216`. -/
def intoM {α γ : Type} (f : α → γ) : Mapper α γ := fun v => .ok (f v)

/-- `TryIntoMapper`, `src/map.rs:246-253`. -/
def tryInto {α γ : Type} (f : α → Option γ) : Mapper α γ := fun v =>
  match f v with
  | some x => .ok x
  | none => .err .tryInto

/-- `Bounded`, `src/map.rs:665-676`; `le`, `lt` are the `PartialOrd` of the type. -/
def bounded {α : Type} (le lt : α → α → Bool) (min max : α) : Mapper α α := fun v =>
  if le min v && lt v max then .ok v else .err .selectEq

/-- `WithDefault`, `src/map.rs:749-765`. -/
def withDefault {α γ : Type} (func : Unit → γ) (m : Mapper α γ) : Mapper α γ := fun v =>
  match m v with
  | .ok x => .ok x
  | .err _ => .ok (func ())
  | .panic => .panic

/-- `FixedSize`, `src/map.rs:825-833`. -/
def fixedSize {α : Type} (_ : Nat) : Mapper α α := fun v => .ok v

/-- `FixedSize::out_size`, `src/map.rs:826-828`. -/
def fixedSizeOutSize (n : Nat) : Nat := n

/-- Value of bytes, least significant first: std's `uN::from_le_bytes`. -/
def leValue : List UInt8 → Nat
  | [] => 0
  | b :: l => b.toNat + 256 * leValue l

/-- Two's complement: the signed value of an `8 * size`-bit pattern. -/
def signedOf (size v : Nat) : Int :=
  if 2 ^ (8 * size - 1) ≤ v then (v : Int) - 2 ^ (8 * size) else v

/-- `val.chunks_exact(size).next()`, `src/map.rs:515-517`: the first `size` items
(`size > 0`). -/
def firstChunk (size : Nat) (l : List UInt8) : Option (List UInt8) :=
  if size ≤ l.length then some (l.take size) else none

/-- `FromLeBytes<uN>`, `src/map.rs:511-525`, instantiated on `:558-599` with
`size` = 1, 2, 4, 8, 16.  (`FromNeBytes` is the same on a little-endian target; the
floating-point instances return the value with these bits.) -/
def fromLeU (size : Nat) : Mapper (List UInt8) Nat := fun l =>
  match firstChunk size l with
  | none => .err .fromLeBytes
  | some b => .ok (leValue b)

/-- `FromBeBytes<uN>`, `src/map.rs:526-540`. -/
def fromBeU (size : Nat) : Mapper (List UInt8) Nat := fun l =>
  match firstChunk size l with
  | none => .err .fromBeBytes
  | some b => .ok (leValue b.reverse)

/-- `FromNeBytes<uN>`, `src/map.rs:541-555`; `big` is the endianness of the
target. -/
def fromNeU (big : Bool) (size : Nat) : Mapper (List UInt8) Nat := fun l =>
  match firstChunk size l with
  | none => .err .fromNeBytes
  | some b => .ok (leValue (if big then b.reverse else b))

/-- `FromLeBytes<iN>`. -/
def fromLeI (size : Nat) : Mapper (List UInt8) Int := fun l =>
  match firstChunk size l with
  | none => .err .fromLeBytes
  | some b => .ok (signedOf size (leValue b))

/-- `FromBeBytes<iN>`. -/
def fromBeI (size : Nat) : Mapper (List UInt8) Int := fun l =>
  match firstChunk size l with
  | none => .err .fromBeBytes
  | some b => .ok (signedOf size (leValue b.reverse))

end Neure
