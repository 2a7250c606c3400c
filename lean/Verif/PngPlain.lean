import Verif.Png
/-!
# The first PNG example, `examples/png.rs`, and what `examples/png2.rs` prints

Left out: the file name, opening the file, the index printed in front of the lines (an `i32`, which would
need 2^31 chunks to overflow) and the wording of the lines; a line is modelled by what it says.
-/

namespace Neure

namespace PngPlain

/-- The lines printed about a chunk, `examples/png.rs:34-79` and `examples/png2.rs:121-148`.  `png2` prints no
byte with the first four (`none`). -/
inductive Line where
  /-- "critical" (`true`) or "ancillary" (`false`). -/
  | critical (byte : Option Nat) (yes : Bool)
  /-- "public" (`true`) or "private" (`false`). -/
  | isPublic (byte : Option Nat) (yes : Bool)
  /-- Bit 5 of the third letter is printed as 0 (`true`) or 1 (`false`). -/
  | reserved (byte : Option Nat) (zero : Bool)
  /-- "unsafe to copy" (`true`) or "safe to copy" (`false`). -/
  | unsafeCopy (byte : Option Nat) (yes : Bool)
  | dataLength (n : Nat)
  | skipped (n : Nat)
  | crc (ok : Bool)
  deriving DecidableEq, Repr

/-- `char::is_uppercase` of std on the characters below 256 (all that one byte can give). -/
def isUppercase (n : Nat) : Bool :=
  (decide (65 ≤ n) && decide (n ≤ 90)) || (decide (0xC0 ≤ n) && decide (n ≤ 0xDE) && n != 0xD7)

/-- `u8::is_ascii_lowercase` of std. -/
def isLowercase (n : Nat) : Bool := decide (97 ≤ n) && decide (n ≤ 122)

/-- What was printed, and how the rest ended. -/
abbrev Run := List Line × Option (Res Unit)

/-- `?` (Rust control flow): an error ends `main`. -/
def try_ {α : Type} (r : Option (Res α)) (k : α → Nat → Run) : Run :=
  match r with
  | none => ([], none)
  | some .panic => ([], some .panic)
  | some (.err e o) => ([], some (.err e o))
  | some (.ok a o) => k a o

/-- `println!` (Rust control flow). -/
def print (l : List Line) (x : Run) : Run := (l ++ x.1, x.2)

/-- `ctx.ctor(&regex::consume(length))?.len()`, `examples/png.rs:66-69`. -/
def skipData (n : Nat) (d : List UInt8) (o : Nat) : Option (Res Nat) :=
  match con (fun _ => none) pngH 5 none d (.consume n) () o with
  | none => none
  | some (.ok (.base (.bytes l)) _ o') => some (.ok l.length o')
  | some (.ok _ _ _) => some .panic
  | some (.err e _ o') => some (.err e o')
  | some .panic => some .panic

/-- The body of the loop behind the length, `examples/png.rs:27-79`; `uint8` (lines 15-17) is `pngUint 1`, its
`char::from_u32` does not fail below 256. -/
def chunk (d : List UInt8) (length crcBeg : Nat) : Run :=
  try_ (pngUint 1 d crcBeg) fun a o1 =>
    try_ (pngUint 1 d o1) fun p o2 =>
      try_ (pngUint 1 d o2) fun r o3 =>
        try_ (pngUint 1 d o3) fun s o4 =>
          print [.critical (some a) (isUppercase a), .isPublic (some p) (isUppercase p),
              .reserved (some r) (isUppercase r), .unsafeCopy (some s) (isUppercase s), .dataLength length] <|
            try_ (skipData length d o4) fun n o5 =>
              print [.skipped n] <|
                match origSub d crcBeg (o5 - crcBeg) with
                | .panic => ([], some .panic)
                | .err e => ([], some (.err e o5))
                | .ok crcData =>
                  try_ (pngUint 4 d o5) fun v o6 =>
                    match calcCrc crcData with
                    | none => ([], some .panic)
                    | some c => ([.crc (v == c.toNat)], some (.ok () o6))

/-- The loop, `examples/png.rs:25-84`.  First argument: fuel. -/
def loop (d : List UInt8) : Nat → Nat → Run
  | 0, _ => ([], none)
  | n + 1, o =>
    match pngUint 4 d o with
    | none => ([], none)
    | some .panic => ([], some .panic)
    | some (.err _ o') => ([], some (.ok () o'))
    | some (.ok length o1) =>
      match chunk d length o1 with
      | (l, some (.ok _ o2)) => print l (loop d n o2)
      | x => x

/-- `main` with the contents of the file, `examples/png.rs:12-86`; `none` is the exit with "Not a png file". -/
def main (d : List UInt8) (n : Nat) : Option Run :=
  match con (fun _ => none) pngH 5 none d (.lit [137, 80, 78, 71, 13, 10, 26, 10]) () 0 with
  | some (.ok _ _ o) => some (loop d n o)
  | some (.err _ _ _) => none
  | some .panic => some ([], some .panic)
  | none => some ([], none)

/-- `examples/png.rs` prints the lines `l` about the file `d` and ends with `r`. -/
def Prints (d : List UInt8) (l : List Line) (r : Res Unit) : Prop := ∃ n, main d n = some (l, some r)

/-- What `examples/png2.rs:121-148` prints about a chunk, through the accessors of lines 53-67 and 77-79. -/
def lines2 (t : Trunk) : List Line :=
  [.critical none (isLowercase t.ancillary), .isPublic none (!isLowercase t.priv),
    .reserved none (!isLowercase t.reserved), .unsafeCopy none (!isLowercase t.safeCopy), .dataLength t.data.length]

end PngPlain

end Neure
