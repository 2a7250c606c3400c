import Verif.Ctor
import Verif.Mapper
/-!
# The PNG example: `examples/png2.rs` (and the checksum it shares with `examples/png.rs`)

The file is read with `consume(n).try_map(..)` through `ctx.ctor`.  Left out: the
file name, opening the file and what `main` prints.
-/

namespace Neure

/-! ## The checksum -/

/-- The body of the inner loop of `initialize_crc_table`, `examples/png2.rs:168-174`
(`examples/png.rs:104-110`). -/
def crcStep (c : UInt32) : UInt32 :=
  if c &&& 1 = 1 then (0xedb88320 : UInt32) ^^^ (c >>> 1) else c >>> 1

/-- The inner loop, `for _ in 0..8`, `examples/png2.rs:168-174`. -/
def crcSteps : Nat → UInt32 → UInt32
  | 0, c => c
  | k + 1, c => crcSteps k (crcStep c)

/-- `initialize_crc_table`, `examples/png2.rs:157-182`: the table. -/
def crcTable : List UInt32 := (List.range 256).map fun n => crcSteps 8 (UInt32.ofNat n)

/-- The loop of `calc_crc`, `examples/png2.rs:189-197`; `none` is the indexing panic. -/
def crcLoop (table : List UInt32) : UInt32 → List UInt8 → Option UInt32
  | c, [] => some c
  | c, b :: buff => match table[((c ^^^ b.toUInt32) &&& 0xff).toNat]? with
    | none => none
    | some t => crcLoop table (t ^^^ (c >>> 8)) buff

/-- `calc_crc`, `examples/png2.rs:185-199`. -/
def calcCrc (buff : List UInt8) : Option UInt32 :=
  (crcLoop crcTable 0xffffffff buff).map (· ^^^ 0xffffffff)

/-! ## The parser -/

/-- The values: byte slices and unsigned integers. -/
inductive PVal where
  | bytes (l : List UInt8)
  | num (n : Nat)
  deriving DecidableEq, Repr

/-- The handler of `ctx.ctor` (`src/ctx.rs:349`), `Extract<&[u8]>`. -/
def pngH : Handler UInt8 PVal Unit := fun d _ s st =>
  match origSub d s.beg s.len with
  | .ok l => (.ok (.bytes l), st)
  | .err e => (.err e, st)
  | .panic => (.panic, st)

/-- `regex::consume(size).try_map(parser)`. -/
def pngField (size : Nat) (f : Mapper (List UInt8) PVal) : Pat UInt8 PVal :=
  .map (.consume size) fun
    | .base (.bytes l) => match f l with
      | .ok v => .ok (.base v)
      | .err e => .err e
      | .panic => .panic
    | _ => .panic

/-- `parse(parser, bc)`, `examples/png2.rs:7-14`; `size` is `parser.out_size()`.
The patterns do not recurse, so a fixed amount of fuel is enough. -/
def pngParse (size : Nat) (f : Mapper (List UInt8) PVal) (d : List UInt8) (o : Nat) :
    Option (Res PVal) :=
  match con (fun _ => none) pngH 5 none d (pngField size f) () o with
  | none => none
  | some (.ok (.base v) _ o') => some (.ok v o')
  | some (.ok _ _ _) => some .panic
  | some (.err e _ o') => some (.err e o')
  | some .panic => some .panic

/-- `from_be_bytes::<uN>()`, as a mapper into `PVal`. -/
def beNum (size : Nat) : Mapper (List UInt8) PVal := fun l => match fromBeU size l with
  | .ok n => .ok (.num n)
  | .err e => .err e
  | .panic => .panic

/-- `parse(from_be_bytes::<uN>(), bc)`: `out_size()` is the size of the type
(`src/map.rs:6-8`). -/
def pngUint (size : Nat) (d : List UInt8) (o : Nat) : Option (Res Nat) :=
  match pngParse size (beNum size) d o with
  | none => none
  | some (.ok (.num n) o') => some (.ok n o')
  | some (.ok (.bytes _) _) => some .panic
  | some (.err e o') => some (.err e o')
  | some .panic => some .panic

/-- `parse(fixed_size(len), bc)`: `out_size()` is `len` (`src/map.rs:825-833`). -/
def pngBytes (len : Nat) (d : List UInt8) (o : Nat) : Option (Res (List UInt8)) :=
  match pngParse (fixedSizeOutSize len)
      (fun l => match fixedSize len l with
        | .ok l => .ok (.bytes l)
        | .err e => .err e
        | .panic => .panic) d o with
  | none => none
  | some (.ok (.bytes l) o') => some (.ok l o')
  | some (.ok (.num _) _) => some .panic
  | some (.err e o') => some (.err e o')
  | some .panic => some .panic

/-- `Trunk`, `examples/png2.rs:16-24`. -/
structure Trunk where
  ancillary : Nat
  priv : Nat
  reserved : Nat
  safeCopy : Nat
  crcValue : Nat
  data : List UInt8
  deriving DecidableEq, Repr

/-- `Trunk::new`, `examples/png2.rs:27-51`; a wrong checksum panics. -/
def trunkNew (d : List UInt8) (length : Nat) (start : Nat) : Option (Res Trunk) :=
  caseR (pngUint 1 d start) (fun ancillary o1 =>
    caseR (pngUint 1 d o1) (fun priv o2 =>
      caseR (pngUint 1 d o2) (fun reserved o3 =>
        caseR (pngUint 1 d o3) (fun safeCopy o4 =>
          caseR (pngBytes length d o4) (fun data o5 =>
            match origSub d start (o5 - start) with
            | .panic => some .panic
            | .err e => some (.err e o5)
            | .ok crcData =>
              caseR (pngUint 4 d o5) (fun crcValue o6 =>
                match calcCrc crcData with
                | none => some .panic
                | some calcValue =>
                  if crcValue ≠ calcValue.toNat then some .panic
                  else some (.ok ⟨ancillary, priv, reserved, safeCopy, crcValue, data⟩ o6))
                (fun e o => some (.err e o)))
            (fun e o => some (.err e o)))
          (fun e o => some (.err e o)))
        (fun e o => some (.err e o)))
      (fun e o => some (.err e o)))
    (fun e o => some (.err e o))

/-- The loop of `Png::new`, `examples/png2.rs:88-96`.  First argument: fuel. -/
def pngLoop (d : List UInt8) : Nat → List Trunk → Nat → Option (Res (List Trunk))
  | 0, _, _ => none
  | n + 1, trunks, o =>
    caseR (pngUint 4 d o)
      (fun length o1 =>
        caseR (trunkNew d length o1) (fun t o2 => pngLoop d n (trunks ++ [t]) o2)
          (fun e o2 => some (.err e o2)))
      (fun _ o1 => some (.ok trunks o1))

/-- What `main` does with the file, `examples/png2.rs:109-119`: the head through
`ctx.ctor`, then `Png::new`; `ok none` is the exit with "Not a png file". -/
def pngMain (d : List UInt8) (n : Nat) : Option (Res (Option (List Trunk))) :=
  match con (fun _ => none) pngH 5 none d (.lit [137, 80, 78, 71, 13, 10, 26, 10]) () 0 with
  | none => none
  | some .panic => some .panic
  | some (.err _ _ o) => some (.ok none o)
  | some (.ok _ _ o) => caseR (pngLoop d n [] o) (fun l o' => some (.ok (some l) o'))
      (fun e o' => some (.err e o'))

/-- Reading the file `d` ends with result `r`. -/
def PngReads (d : List UInt8) (r : Res (Option (List Trunk))) : Prop := ∃ n, pngMain d n = some r

end Neure
