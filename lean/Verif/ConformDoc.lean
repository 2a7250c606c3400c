import Verif.Conform
import Verif.Escape
import Verif.Prefix
import Verif.Storer
/-!
# Conformance: the examples of the crate's documentation, run in the model

The assertions of the doc examples of `/repo/src` (which `cargo test` runs),
evaluated in the model.  As in `Verif/Conform.lean`, these are tests of the model, not
proofs of a property.  Units that consult Unicode tables (`alphabetic`, …) are
replaced by their ASCII restriction where the example's input is ASCII.
-/

namespace Neure.Conform

open Neure.Demo Neure.Api

/-- The bytes of an ASCII string. -/
def by_ (s : String) : List UInt8 := s.toList.map fun c => UInt8.ofNat c.toNat

/-- A byte-string pattern. -/
def litB {β : Type} (s : String) : Pat UInt8 β := .lit (by_ s)

/-- A byte string as a value. -/
def tB (s : String) : Val (D UInt8) := .base (.text (by_ s))

/-- A number as a value. -/
def nB (i : Int) : Val (D UInt8) := .base (.num i)

/-- `BytesCtx::new(l).ctor(p)`. -/
def ctorB (p : Pat UInt8 (D UInt8)) (l : List UInt8) : Option (CRes Unit (Val (D UInt8))) :=
  con G0 dH 100 none l p () 0

/-- `ctx.try_mat(p)` on bytes. -/
def matB (p : Pat UInt8 Unit) (l : List UInt8) (o : Nat := 0) : Option (Res Span) :=
  tryMat G0 100 none l p o

/-- The span returned, whatever the offset.  (The `*_ltm` patterns leave the context
where the last alternative stopped, so their examples only fix the span.) -/
def spanOf : Option (Res Span) → Option Span
  | some (.ok s _) => some s
  | _ => none

/-- `neu::digit(r).many1()`. -/
def digits {β : Type} (r : Nat) : Pat Char β := .many1 (Unit.digit r) .empty

/-- `",".skip_ws()`. -/
def comma {β : Type} : Pat Char β := skipWs (lit ",")

/-- `u.count::<N>()`. -/
def count {ι β : Type} (k : Nat) (u : Neu ι) : Pat ι β := .between k k u .empty

/-- `[a, b, …]`-style alternatives without values. -/
def alts {ι β : Type} (l : List (Pat ι β)) : List (Pat ι β × Option (Val β)) := l.map (·, none)

/-! ## `src/ctor.rs` -/

def array1 : Pat Char (D Char) :=
  .enclose (lit "[") (.sep (num true 64 10 (.many1 (rng '0' '9') .empty)) comma true 1) (lit "]")

/-- `src/ctor.rs:391`. -/
example : value (ctor array1 "[2, 4, 8, 16, 42]") = some (.list [n 2, n 4, n 8, n 16, n 42]) := by
  decide +kernel
/-- `src/ctor.rs:392`. -/
example : value (ctor (.pat array1) "[2, 4, 8, 16, 42]") = some (t "[2, 4, 8, 16, 42]") := by
  decide +kernel

/-- `src/ctor.rs:415-416`. -/
example : value (ctor (.opt (num false 64 10 (digits 10))) "foo") = some .none := by decide +kernel
example : value (ctor (.opt (num false 64 10 (digits 10))) "955") = some (.some (n 955)) := by
  decide +kernel

/-- `src/ctor.rs:441`. -/
example : value (ctor (.enclose (lit "[") (.sep (.enclose (lit "'") (.once Unit.ascii .empty) (lit "'"))
      comma true 1) (lit "]")) "['a', 'c', 'd', 'f']") =
    some (.list [t "a", t "c", t "d", t "f"]) := by decide +kernel

/-- `src/ctor.rs:465`. -/
example : value (ctor (.enclose (lit "[") (.sep (.many1 (.not (.mem [',', ']', '['])) .empty)
      (skipWs (.once (.item ',') .empty)) true 1) (lit "]")) "[c, rust, java, c++]") =
    some (.list [t "c", t "rust", t "java", t "c++"]) := by decide +kernel

def ele488 : Pat Char (D Char) :=
  .sepOnce (skipWs (.many1 Unit.asciiAlphabetic .empty)) (skipWs (lit "=>"))
    (skipWs (.many1 (.not (.or Unit.whitespace (.item ','))) .empty))

def text488 : String := "{\n        c => c11,\n        cpp => c++23,\n        rust => 2021,\n    }"

/-- `src/ctor.rs:500-503`. -/
example : value (ctor (.enclose (skipWs (lit "{")) (.sep ele488 comma true 1) (lit "}")) text488) =
    some (.list [.pair (t "c") (t "c11"), .pair (t "cpp") (t "c++23"), .pair (t "rust") (t "2021")]) := by
  decide +kernel

/-- `src/ctor.rs:538-541`: the pairs handed to the `HashMap`. -/
example : value (ctor (.enclose (skipWs (lit "{")) (.sepCollect ele488 comma true 1) (lit "}")) text488) =
    some (.list [.pair (t "c") (t "c11"), .pair (t "cpp") (t "c++23"), .pair (t "rust") (t "2021")]) := by
  decide +kernel

/-- `src/ctor.rs:571-574`: a condition that stops at an escaped quote. -/
example : value (ctor (.sep (.enclose (lit "\"") (.pat (.rep (.or (.many1 (.not (.equal '"'))
      (.regex (.assert (lit "\\\"") false))) (lit "\\\"")) (RangeExpr.rangeFrom 1).toCRange)) (lit "\""))
      comma true 1) "\"lily\\\"\", \"lilei\", \"lucy\"") =
    some (.list [t "lily\\\"", t "lilei", t "lucy"]) := by decide +kernel

/-- `src/ctor.rs:602`. -/
example : value (ctor (.enclose (lit "{") (.sep (.longest (lit "v") (.longest (lit "val") (lit "value")))
      comma true 1) (lit "}")) "{val, v, value}") = some (.list [t "val", t "v", t "value"]) := by
  decide +kernel

def ident622 : Pat Char (D Char) := .many1 Unit.asciiAlphabetic .empty

/-- `src/ctor.rs:628`. -/
example : value (ctor (fst (.thn (skipWs (.or (snd (.thn (skipWs (lit "struct")) ident622))
      (snd (.thn (skipWs (lit "enum")) ident622)))) (.enclose (lit "{") ws (lit "}"))))
      "struct widget { }") = some (t "widget") := by decide +kernel

def using650 : Pat Char (D Char) :=
  .ifThen (snd (.sepOnce (lit "use") (lit "") (.sep (.many1 (.or (.or Unit.asciiAlphanumeric (.item '*'))
    (.item '_')) .empty) (lit "::") true 1))) (lit "as") (.many1 Unit.asciiAlphanumeric .empty)

/-- `src/ctor.rs:660-668`. -/
example : value (ctorSkip ws using650 "use neure::prelude::*") =
    some (.pair (.list [t "neure", t "prelude", t "*"]) .none) := by decide +kernel
example : value (ctorSkip ws using650 "use neure as regex") =
    some (.pair (.list [t "neure"]) (.some (t "regex"))) := by decide +kernel

/-- `src/ctor.rs:691`. -/
example : value (ctor (.rep (skipWs (num true 32 10 (digits 10))) (RangeExpr.range 3 5).toCRange)
      "1 2 3 4") = some (.list [n 1, n 2, n 3, n 4]) := by decide +kernel

/-- `try_map(from_le_bytes::<iN>())`. -/
def leI (size : Nat) (p : Pat UInt8 (D UInt8)) : Pat UInt8 (D UInt8) :=
  .map p fun
    | .base (.text l) => match fromLeI size l with
      | .ok n => .ok (nB n)
      | .err e => .err e
      | .panic => .panic
    | _ => .panic

/-- `src/ctor.rs:719-722`. -/
example : value (ctorB (.collect (leI 2 (.consume 2)) 1) [0x2f, 0, 0x1f, 0, 0x0f, 0]) =
    some (.list [nB 0x2f, nB 0x1f, nB 0x0f]) := by decide +kernel

/-- The rest of the input starts with the given text: `ctx.orig()?.starts_with(s)`. -/
def starts (s : String) (d : List Char) (o : Nat) : Out Bool :=
  match origAt d o with
  | .ok l => .ok (s.toList.isPrefixOf l)
  | .err e => .err e
  | .panic => .panic

/-- `src/ctor.rs:747-748`. -/
example : value (ctor (.branch (starts "file") (lit "file://") (lit "http://")) "file://") =
    some (t "file://") := by decide +kernel
example : value (ctor (.branch (starts "file") (lit "file://") (lit "http://")) "http://") =
    some (t "http://") := by decide +kernel

def sent764 : Pat Char (D Char) :=
  .rep (.suf (.sep (.many1 (.not (.or (.mem ['，', ';']) (.mem ['。', '？', '！']))) .empty)
    (skipWs (.once (.mem ['，', ';']) .empty)) true 1) (.once (.mem ['。', '？', '！']) .empty))
    (RangeExpr.rangeFrom 1).toCRange

/-- Number of elements of a vector. -/
def vlen {β : Type} : Val β → Nat
  | .cons _ l => vlen l + 1
  | _ => 0

/-- `src/ctor.rs:778`. -/
example : (value (ctor sent764
      "暖日晴风初破冻。柳眼眉腮，已觉春心动。酒意诗情谁与共。泪融残粉花钿重。乍试夹衫金缕缝。山枕斜敧，枕损钗头凤。独抱浓愁无好梦。夜阑犹剪灯花弄。")).map
    vlen = some 8 := by decide +kernel

def num2 {β : Type} : Pat Char β := count 2 (Unit.digit 10)
def record798 : Pat Char (D Char) :=
  .rep (.thn (skipWs (.enclose (lit "[") (.sepOnce num2 (lit ":") num2) (lit "]")))
    (.thn (.pre (skipWs (count 3 (.item '*'))) (skipWs (.many1 (.not Unit.whitespace) .empty)))
      (skipWs (.or (lit "left") (lit "joined"))))) (RangeExpr.rangeFrom 1).toCRange

/-- `src/ctor.rs:813-817`. -/
example : value (ctor record798 ("[20:59] *** jpn left\n        [21:00] *** jpn joined\n" ++
      "        [21:06] *** guifa left\n        [21:07] *** guifa joined")) =
    some (.list [.pair (.pair (t "20") (t "59")) (.pair (t "jpn") (t "left")),
      .pair (.pair (t "21") (t "00")) (.pair (t "jpn") (t "joined")),
      .pair (.pair (t "21") (t "06")) (.pair (t "guifa") (t "left")),
      .pair (.pair (t "21") (t "07")) (.pair (t "guifa") (t "joined"))]) := by decide +kernel

/-- `src/ctor.rs:838-839`. -/
example : value (ctor (skipWs (lit "file://")) "file://      ") = some (t "file://") := by decide +kernel
example : mat (skipWs (lit "file://")) "file://      " = some (.ok ⟨0, 13⟩ 13) := by decide +kernel
/-- `src/ctor.rs:873-874`. -/
example : value (ctor (skipWsLeading (lit "file://")) "      file://") = some (t "file://") := by
  decide +kernel
example : mat (skipWsLeading (lit "file://")) "      file://" = some (.ok ⟨0, 13⟩ 13) := by decide +kernel

/-! ## `src/ctor/adapter.rs`, `src/ctor/into.rs` (the wrapped parsers) -/

/-- `src/ctor/adapter.rs:228-231`, `src/ctor/into.rs:73-76`, `src/neu/then.rs:39-41`. -/
def hex4 : Pat UInt8 (D UInt8) :=
  .pat (.thn (.thenU (.or (.item 43) (.item 45)) Unit.asciiHexdigit .empty) (count 3 Unit.asciiHexdigit))
example : value (ctorB hex4 (by_ "+AE00")) = some (tB "+AE00") := by decide +kernel
example : isErr (ctorB hex4 (by_ "-GH66")) = true := by decide +kernel
example : value (ctorB hex4 (by_ "-83FD")) = some (tB "-83FD") := by decide +kernel

/-- `src/ctor/adapter.rs:258-265`, `src/ctor/into.rs:101-108`. -/
def date258 : Pat Char (D Char) :=
  .sepOnce (count 4 Unit.asciiDigit) (lit "-") (.sepOnce (count 2 Unit.asciiDigit) (lit "-")
    (count 2 Unit.asciiDigit))
example : value (ctor date258 "2024-01-08") = some (.pair (t "2024") (.pair (t "01") (t "08"))) := by
  decide +kernel
example : value (ctor (.sepOnce date258 (lit " ") (.sepOnce (count 2 Unit.asciiDigit) (lit ":")
      (.sepOnce (count 2 Unit.asciiDigit) (lit ":") (count 2 Unit.asciiDigit)))) "2024-01-08 10:01:13") =
    some (.pair (.pair (t "2024") (.pair (t "01") (t "08")))
      (.pair (t "10") (.pair (t "01") (t "13")))) := by decide +kernel

/-- `src/ctor/adapter.rs:290-291`. -/
example : value (ctorB (.thenU Unit.asciiHexdigit Unit.asciiHexdigit .empty) (by_ "AE")) =
    some (tB "AE") := by decide +kernel
example : isErr (ctorB (.thenU Unit.asciiHexdigit Unit.asciiHexdigit .empty) (by_ "GH")) = true := by
  decide +kernel

/-- `src/ctor/adapter.rs:318-319`: the text given to `from_str::<f64>`. -/
def float318 : Pat Char (D Char) :=
  .pat (.sepOnce (.many1 Unit.asciiDigit .empty) (lit ".") (.many1 Unit.asciiDigit .empty))
example : value (ctor float318 "999.88") = some (t "999.88") := by decide +kernel
example : isErr (ctor float318 "99A/100") = true := by decide +kernel

/-- `src/ctor/adapter.rs:343-354, 520-531`. -/
def prog343 : Pat Char (D Char) :=
  .sepOnce (.between 3 usizeMax Unit.asciiDigit .empty) (lit "/") (.between 3 usizeMax Unit.asciiDigit .empty)
example : value (ctor prog343 "999/1000") = some (.pair (t "999") (t "1000")) := by decide +kernel
example : isErr (ctor prog343 "99A/100") = true := by decide +kernel

/-- `src/ctor/adapter.rs:381-382`. -/
def title381 : Pat Char (D Char) :=
  .enclose (lit "《") (.many1 (.pred fun c => decide (0x4e00 ≤ c.toNat) && decide (c.toNat ≤ 0x9fff)) .empty)
    (lit "》")
example : value (ctor title381 "《东方力量》") = some (t "东方力量") := by decide +kernel
example : isErr (ctor title381 "《Power》") = true := by decide +kernel

/-- A one-digit number on bytes (`try_map(from_utf8)`, then `from_str::<usize>`). -/
def digitB : Pat UInt8 (D UInt8) :=
  .map (.once Unit.asciiDigit .empty) fun
    | .base (.text [b]) => .ok (nB (b.toNat - 48))
    | _ => .panic

/-- `src/ctor/adapter.rs:407-409`, `src/ctor/into.rs:149-151`. -/
example : value (ctorB (.sepOnce digitB (litB ",") digitB) (by_ "3,0")) = some (.pair (nB 3) (nB 0)) := by
  decide +kernel
example : value (ctorB (.sepOnce digitB (litB ",") digitB) (by_ "2,1")) = some (.pair (nB 2) (nB 1)) := by
  decide +kernel

/-- `src/ctor/adapter.rs:430, 482-485`. -/
def video : Pat Char (D Char) :=
  fst (.sepOnce (.sepOnce (.many1 Unit.asciiAlphabetic .empty) (lit "_") (count 10 Unit.asciiDigit))
    (lit ".") (lit "txt"))
example : value (ctor video "video_1135897722.txt") = some (.pair (t "video") (t "1135897722")) := by
  decide +kernel

/-- `src/ctor/adapter.rs:556-564`. -/
def path556 : Pat Char (D Char) :=
  .thn (.opt (lit "/")) (.opt (.sep (.many1 (.not (.item '/')) .empty) (lit "/") true 1))
example : value (ctor path556 "/") = some (.pair (.some (t "/")) .none) := by decide +kernel
example : value (ctor path556 "/foo") = some (.pair (.some (t "/")) (.some (.list [t "foo"]))) := by
  decide +kernel
example : value (ctor path556 "foo/bar") = some (.pair .none (.some (.list [t "foo", t "bar"]))) := by
  decide +kernel

/-! ## `src/ctor/affix.rs`, `array.rs`, `branch.rs`, `collect.rs`, `dthen.rs`, `enclose.rs` -/

def protocol35 {β : Type} : Pat Char β :=
  .suf (.or (lit "https") (.or (lit "http") (lit "ftp"))) (lit "://")
def domain35 {β : Type} : Pat Char β := .sep (.many1 Unit.asciiAlphabetic .empty) (lit ".") true 2

/-- `src/ctor/affix.rs:46`. -/
example : mat (.thn protocol35 domain35) "ftp://ftp.kernel.org" = some (.ok ⟨0, 20⟩ 20) := by
  decide +kernel
/-- `src/ctor/affix.rs:70`. -/
example : value (ctor (.thn protocol35 domain35) "https://www.mozilla.org") =
    some (.pair (t "https") (.list [t "www", t "mozilla", t "org"])) := by decide +kernel
/-- `src/ctor/affix.rs:256`. -/
example : mat (.pre protocol35 domain35) "ftp://ftp.kernel.org" = some (.ok ⟨0, 20⟩ 20) := by
  decide +kernel
/-- `src/ctor/affix.rs:279`. -/
example : value (ctor (.pre protocol35 domain35) "ftp://ftp.kernel.org") =
    some (.list [t "ftp", t "kernel", t "org"]) := by decide +kernel

/-- `src/ctor/array.rs:39-49`. -/
example : mat (.choice .array (alts [lit "a", lit "b", lit "c"])) "abc" = some (.ok ⟨0, 1⟩ 1) := by
  decide +kernel
example : mat (.choice .array (alts [lit "a", lit "b", lit "c"])) "xyz" = some (.err .array 0) := by
  decide +kernel
/-- `src/ctor/array.rs:68-70`. -/
example : value (ctorSpan (.choice .array (alts [lit "a", lit "b", lit "c"])) "abc") =
    some (sp 0 1) := by decide +kernel
example : value (ctor (.choice .array (alts [lit "a", lit "b", lit "c"])) "bcd") = some (t "b") := by
  decide +kernel
example : value (ctorSpan (.choice .array (alts [lit "a", lit "b", lit "c"])) "cde") =
    some (sp 0 1) := by decide +kernel
/-- `src/ctor/array.rs:200`, `src/ctor/slice.rs:267` (`Kind::C` is 2). -/
example : value (ctor (.choice .pairArray [(lit "a", some (n 0)), (lit "b", some (n 1)),
      (lit "c", some (n 2))]) "cab") = some (.pair (t "c") (n 2)) := by decide +kernel

/-- `src/ctor/branch.rs:45-46`. -/
def branch45 : Pat Char Unit :=
  .branch (fun d o => .ok (decide (blen d - o ≥ 3))) (count 3 Unit.asciiDigit) (.many0 Unit.asciiDigit .empty)
example : mat branch45 "21345" = some (.ok ⟨0, 3⟩ 3) := by decide +kernel
example : mat branch45 "42" = some (.ok ⟨0, 2⟩ 2) := by decide +kernel

/-- `src/ctor/branch.rs:74-77`. -/
def ends (s : String) (d : List Char) (o : Nat) : Out Bool :=
  match origAt d o with
  | .ok l => .ok (s.toList.reverse.isPrefixOf l.reverse)
  | .err e => .err e
  | .panic => .panic
def google : Pat Char (D Char) :=
  .branch (fun d o => match ends "jp" d o, ends "kr" d o with
      | .ok a, .ok b => .ok (a || b)
      | _, _ => .panic)
    (.pat (.sepOnce (lit "google") (lit ".") (.sepOnce (lit "co") (lit ".") (.or (lit "kr") (lit "jp")))))
    (.pat (.sepOnce (lit "google") (lit ".") (.or (lit "com") (lit "is"))))
example : value (ctor google "google.com") = some (t "google.com") := by decide +kernel
example : value (ctor google "google.is") = some (t "google.is") := by decide +kernel
example : value (ctor google "google.co.jp") = some (t "google.co.jp") := by decide +kernel
example : value (ctor google "google.co.kr") = some (t "google.co.kr") := by decide +kernel

/-- `src/ctor/collect.rs:34-40`. -/
example : failed (matB (.collect (litB "+") 1) (by_ "---A")) = true := by decide +kernel
example : matB (.collect (litB "+") 1) (by_ "+++A") = some (.ok ⟨0, 3⟩ 3) := by decide +kernel
example : failed (matB (.collect (litB "+") 3) (by_ "++-A")) = true := by decide +kernel
/-- `src/ctor/collect.rs:61-63`. -/
example : isErr (ctorB (.collect (litB "+") 1) (by_ "---A")) = true := by decide +kernel
example : value (ctorB (.collect (litB "+") 1) (by_ "+++A")) = some (.list [tB "+", tB "+", tB "+"]) := by
  decide +kernel
example : value (ctorB (.collect (litB "+") 1) (by_ "++-A")) = some (.list [tB "+", tB "+"]) := by
  decide +kernel

/-- `src/ctor/dthen.rs:53-55`. -/
example : value (ctorB (.dthen (leI 2 (.consume 2)) fun _ o v => match v with
      | .base (.num k) => .ok (.consume k.toNat) o
      | _ => .panic) ([0x1f, 0] ++ by_ "Hello there, where are you from?")) =
    some (.pair (nB 0x1f) (tB "Hello there, where are you from")) := by decide +kernel

/-- `src/ctor/dthen.rs:78-90`. -/
def plusMinus : Pat UInt8 (D UInt8) :=
  .dthen (.sepOnce digitB (litB ",") digitB) fun _ o v => match v with
    | .pair (.base (.num a)) (.base (.num b)) =>
      .ok (.thn (.times (RangeExpr.int a).toCRange (.item 43) .empty)
        (.times (RangeExpr.int b).toCRange (.item 45) .empty)) o
    | _ => .panic
example : value (ctorB plusMinus (by_ "3,0+++")) =
    some (.pair (.pair (nB 3) (nB 0)) (.pair (tB "+++") (tB ""))) := by decide +kernel
example : value (ctorB plusMinus (by_ "2,1++-")) =
    some (.pair (.pair (nB 2) (nB 1)) (.pair (tB "++") (tB "-"))) := by decide +kernel
example : value (ctorB plusMinus (by_ "0,3---")) =
    some (.pair (.pair (nB 0) (nB 3)) (.pair (tB "") (tB "---"))) := by decide +kernel

/-- `src/ctor/enclose.rs:46`. -/
example : mat (.enclose (lit "(") (.many0 (Unit.digit 10) .empty) (lit ")")) "(42686)" =
    some (.ok ⟨0, 7⟩ 7) := by decide +kernel
/-- `src/ctor/enclose.rs:72`. -/
example : value (ctor (.enclose (lit "\"") (.many1 (.not (.item '"')) .empty) (lit "\"")) "\"rust\"") =
    some (t "rust") := by decide +kernel
/-- `src/ctor/enclose.rs:88-91`. -/
example : value (ctor (.enclose (lit "r#") (.many1 (.not (.item '#'))
      (.regex (.assert (.thenU (.item 'r') (.item '#') .empty) false))) (lit "#")) "r#rust raw string#") =
    some (t "rust raw string") := by decide +kernel

/-! ## `src/ctor/longest.rs`, `map.rs`, `opt.rs`, `or.rs`, `pat.rs`, `repeat.rs`, `repeat2.rs` -/

/-- `src/ctor/longest.rs:42-50`. -/
example : mat (.longest (lit "http") (lit "https")) "https://docs.rs" = some (.ok ⟨0, 5⟩ 5) := by
  decide +kernel
example : mat (.longest (lit "http") (lit "https")) "http://docs.rs" = some (.ok ⟨0, 4⟩ 4) := by
  decide +kernel
/-- `src/ctor/longest.rs:77`. -/
example : value (ctor (.enclose (lit "{") (.sep (.longest (num true 32 10 (digits 10))
      (num true 32 16 (digits 16))) comma true 1) (lit "}")) "{12, 1E, A8, 88, 2F}") =
    some (.list [n 12, n 0x1e, n 0xa8, n 88, n 0x2f]) := by decide +kernel

/-- `src/ctor/map.rs:46`. -/
example : mat (.thn (count 3 Unit.asciiAlphabetic) (.map (count 3 (Unit.digit 10)) .ok)) "foo777" =
    some (.ok ⟨0, 6⟩ 6) := by decide +kernel
/-- `src/ctor/map.rs:71`. -/
example : value (ctor (.thn (count 3 Unit.asciiAlphabetic) (num true 32 10 (count 3 (Unit.digit 10))))
      "foo777") = some (.pair (t "foo") (n 777)) := by decide +kernel

/-- `src/ctor/opt.rs:40-41`. -/
example : mat (.opt (digits 16)) "f1" = some (.ok ⟨0, 2⟩ 2) := by decide +kernel
example : mat (.opt (digits 16)) "p8" = some (.ok ⟨0, 0⟩ 0) := by decide +kernel
/-- `src/ctor/opt.rs:62-63`. -/
example : value (ctor (.opt (num true 32 10 (digits 10))) "42") = some (.some (n 42)) := by decide +kernel
example : value (ctor (.opt (num true 32 10 (digits 10))) "f1") = some .none := by decide +kernel

/-- `src/ctor/or.rs:44-48`. -/
def or44 : Pat Char Unit := .or (digits 16) (.many1 (.or (rng 'a' 'z') (rng 'A' 'Z')) .empty)
example : mat or44 "8848" = some (.ok ⟨0, 4⟩ 4) := by decide +kernel
example : mat or44 "hello world" = some (.ok ⟨0, 5⟩ 5) := by decide +kernel

def based (pfx : String) (r : Nat) : Pat Char (D Char) := snd (.thn (lit pfx) (num true 64 r (digits r)))
def const (k : Int) (p : Pat Char (D Char)) : Pat Char (D Char) := .map p fun _ => .ok (n k)
def signed83 : Pat Char (D Char) :=
  .map (.thn (.or (const 1 (lit "+")) (.or (const (-1) (lit "-")) (const 1 .empty)))
    (.or (based "0b" 2) (.or (based "0o" 8) (.or (based "0d" 10) (based "0x" 16))))) fun
    | .pair (.base (.num s)) (.base (.num v)) => .ok (n (s * v))
    | _ => .panic
/-- `src/ctor/or.rs:88-91`. -/
example : value (ctor (.sep signed83 comma true 1) "0d18, +0o17, -0x18, -0b1010") =
    some (.list [n 18, n 15, n (-24), n (-10)]) := by decide +kernel

/-- `src/ctor/pat.rs:37-38, 56-57`. -/
def site {β : Type} : Pat Char β := .sepOnce (lit "abc") (lit ".") (lit "com")
example : mat site "abc.com" = some (.ok ⟨0, 7⟩ 7) := by decide +kernel
example : mat (.pat site) "abc.com" = some (.ok ⟨0, 7⟩ 7) := by decide +kernel
example : value (ctor site "abc.com") = some (.pair (t "abc") (t "com")) := by decide +kernel
example : value (ctor (.pat site) "abc.com") = some (t "abc.com") := by decide +kernel

/-- `src/ctor/repeat.rs:44`. -/
example : mat (.rep (skipWs (count 2 Unit.word)) (RangeExpr.rangeFrom 1).toCRange) "Hello, World!" =
    some (.ok ⟨0, 4⟩ 4) := by decide +kernel
/-- `src/ctor/repeat.rs:70`. -/
example : value (ctor (.rep (skipWs (.once .always .empty)) (RangeExpr.rangeFrom 1).toCRange)
      "你好，世界？") = some (.list [t "你", t "好", t "，", t "世", t "界", t "？"]) := by decide +kernel
/-- `src/ctor/repeat2.rs:44`. -/
example : mat (.rep2 (skipWs (count 2 Unit.word)) 1 32) "Hello, World!" =
    some (.ok ⟨0, 4⟩ 4) := by decide +kernel
/-- `src/ctor/repeat2.rs:70`. -/
example : value (ctor (.rep2 (skipWs (.once .always .empty)) 1 6) "你好，世界？") =
    some (.list [.some (t "你"), .some (t "好"), .some (t "，"), .some (t "世"), .some (t "界"),
      .some (t "？")]) := by decide +kernel

/-! ## `src/ctor/sep.rs`, `slice.rs`, `then.rs`, `vec.rs` -/

/-- `src/ctor/sep.rs:55`. -/
example : mat (.sepOnce (.many1 (.not (.item '=')) .empty) (lit "=") (.many1 (.not (.item '=')) .empty))
    "lang=rust" = some (.ok ⟨0, 9⟩ 9) := by decide +kernel
/-- `src/ctor/sep.rs:82`. -/
example : value (ctor (.map (.sepOnce (.sepOnce num2 (lit ":") num2) (lit ":") num2) fun
      | .pair (.pair h m) s => .ok (.list [h, m, s])
      | _ => .panic) "20:31:42") = some (.list [t "20", t "31", t "42"]) := by decide +kernel
/-- `src/ctor/sep.rs:311`. -/
example : mat (.enclose (lit "{") (.sep (digits 10) (.suf (lit ",") ws) true 1) (lit "}"))
    "{11, 42, 8, 99}" = some (.ok ⟨0, 15⟩ 15) := by decide +kernel
/-- `src/ctor/sep.rs:339`. -/
def ty330 : Pat Char (D Char) :=
  .pat (.thn (.once (.or (rng 'a' 'z') (rng 'A' 'Z')) .empty) (.many0 Unit.word .empty))
example : value (ctor (.enclose (lit "<") (.sep ty330 (.suf (lit ",") ws) true 1) (lit ">"))
      "<Ctx, T, O1, O2>") = some (.list [t "Ctx", t "T", t "O1", t "O2"]) := by decide +kernel
/-- `src/ctor/sep.rs:619`. -/
example : mat (.enclose (lit "{") (.sep2 (digits 10) (.suf (lit ",") ws) true 0 8) (lit "}"))
    "{11, 42, 8, 99}" = some (.ok ⟨0, 15⟩ 15) := by decide +kernel
/-- `src/ctor/sep.rs:647-650`. -/
example : value (ctor (.enclose (lit "<") (.sep2 ty330 (.suf (lit ",") ws) true 1 4) (lit ">"))
      "<Ctx, T, O1, O2>") = some (.list [.some (t "Ctx"), .some (t "T"), .some (t "O1"), .some (t "O2")]) := by
  decide +kernel
/-- `src/ctor/sep.rs:901`. -/
example : mat (.enclose (lit "[") (.sepCollect (digits 10) comma true 1) (lit "]")) "[18, 24, 42, 58, 69]" =
    some (.ok ⟨0, 20⟩ 20) := by decide +kernel
/-- `src/ctor/sep.rs:935-937`: the pairs handed to the `HashMap`. -/
example : value (ctor (.enclose (lit "{") (.sepCollect (.sepOnce (.many1 Unit.word .empty) (lit " => ")
      (num false 32 10 (digits 10))) (lit ", ") true 1) (lit "}"))
      "{rust => 2015, golang => 2012, java => 1996}") =
    some (.list [.pair (t "rust") (n 2015), .pair (t "golang") (n 2012), .pair (t "java") (n 1996)]) := by
  decide +kernel

/-- `src/ctor/slice.rs:54, 85`. -/
example : mat (.choice .slice (alts [lit "a", lit "b", lit "c"])) "abc" = some (.ok ⟨0, 1⟩ 1) := by
  decide +kernel
example : value (ctor (.choice .slice (alts [lit "abc", lit "def", lit "ghi"])) "ghi") =
    some (t "ghi") := by decide +kernel
/-- `src/ctor/slice.rs:228-230`. -/
def kinds : List (Pat Char (D Char) × Option (Val (D Char))) :=
  [(digits 10, some (n 1)), (.many1 Unit.word .empty, some (n 0)), (.consumeAll, some (n 2))]
example : value (ctor (.choice .pairSlice kinds) "crab") = some (.pair (t "crab") (n 0)) := by
  decide +kernel
example : value (ctor (.choice .pairSlice kinds) "2025") = some (.pair (t "2025") (n 1)) := by
  decide +kernel
example : tryMat G0 100 none "&ptr".toList (.choice .pairSlice kinds) 0 = some (.ok ⟨0, 4⟩ 4) := by
  decide +kernel

/-- `src/ctor/then.rs:63-66`. -/
example : mat (.thn (.enclose (lit "\"") (.many1 Unit.asciiAlphabetic .empty) (lit "\""))
    (.pre (lit " ") (digits 10))) "\"Galaxy\" 42" = some (.ok ⟨0, 11⟩ 11) := by decide +kernel
/-- `src/ctor/then.rs:99-102`. -/
example : value (ctor (.thn (digits 10) (.pre (lit " ") (.sep (.many1 Unit.word .empty) ws true 1)))
      "42 is the answer") = some (.pair (t "42") (.list [t "is", t "the", t "answer"])) := by decide +kernel
/-- `src/ctor/then.rs:285-289`. -/
def generic : Pat Char Unit :=
  .ifThen (.many1 Unit.word .empty) (.assert (lit "<") true)
    (.enclose (lit "<") (.sep (.many1 Unit.word .empty) (lit ", ") true 1) (lit ">"))
example : mat generic "Vec" = some (.ok ⟨0, 3⟩ 3) := by decide +kernel
example : mat generic "Vec<A, B>" = some (.ok ⟨0, 9⟩ 9) := by decide +kernel
/-- `src/ctor/then.rs:310-314`. -/
def tuple310 : Pat Char (D Char) :=
  .enclose (lit "(") (.ifThen (.many1 Unit.asciiAlphabetic .empty) comma (.many1 Unit.asciiAlphabetic .empty))
    (lit ")")
example : value (ctor tuple310 "(abc)") = some (.pair (t "abc") .none) := by decide +kernel
example : value (ctor tuple310 "(abc, cde)") = some (.pair (t "abc") (.some (t "cde"))) := by decide +kernel

/-- `src/ctor/vec.rs:46-47`. -/
example : mat (.choice .vector (alts [lit "for", lit "while", lit "repeat"])) "while" =
    some (.ok ⟨0, 5⟩ 5) := by decide +kernel
example : mat (.choice .vector (alts [lit "for", lit "while", lit "repeat"])) "repeat" =
    some (.ok ⟨0, 6⟩ 6) := by decide +kernel

/-- A tuple `(a, b, c)` from the parts in the given order. -/
def triple (f : Val (D Char) → Val (D Char) → Val (D Char) → Val (D Char)) (p : Pat Char (D Char)) :
    Pat Char (D Char) :=
  .map p fun
    | .pair a (.pair b c) => .ok (f a b c)
    | _ => .panic
def year4 : Pat Char (D Char) := count 4 (Unit.digit 10)
/-- `src/ctor/vec.rs:75-85`. -/
def date75 : Pat Char (D Char) := .choice .vector (alts
  [triple (fun y m d => .list [y, m, d]) (.sepOnce year4 (lit "-") (.sepOnce num2 (lit "-") num2)),
   triple (fun d m y => .list [y, m, d]) (.sepOnce num2 (lit "/") (.sepOnce num2 (lit "/") year4)),
   triple (fun y m d => .list [y, m, d]) (.thn year4 (.thn num2 num2))])
example : value (ctor date75 "20251112") = some (.list [t "2025", t "11", t "12"]) := by decide +kernel
example : value (ctor date75 "12/10/2025") = some (.list [t "2025", t "10", t "12"]) := by decide +kernel
example : value (ctor date75 "2025-10-08") = some (.list [t "2025", t "10", t "08"]) := by decide +kernel

/-- `src/ctor/vec.rs:213-214, 243-250`. -/
def keywords : Pat Char (D Char) :=
  .choice .pairVector [(lit "for", some (n 0)), (lit "while", some (n 1)), (lit "repeat", some (n 2))]
example : tryMat G0 100 none "while".toList keywords 0 = some (.ok ⟨0, 5⟩ 5) := by decide +kernel
example : value (ctor keywords "while") = some (.pair (t "while") (n 1)) := by decide +kernel
example : value (ctor keywords "repeat") = some (.pair (t "repeat") (n 2)) := by decide +kernel

/-! ## `src/ctx.rs`, `src/ctx/regex.rs` -/

/-- `src/ctx.rs:104, 129-132`. -/
example : isMat (β := Unit) G0 none "98".toList (digits 10) 100 0 = some (.ok true 2) := by decide +kernel
example : mat (digits 10) "98" = some (.ok ⟨0, 2⟩ 2) := by decide +kernel
/-- `src/ctx.rs:198-205`. -/
example : tryMatPolicy (β := Unit) G0 none "Give me 98 cents.".toList (digits 10)
    (skipAsciiWs (lit "Give me")) (skipAsciiWsLeading (lit "cents")) 100 0 = some (.ok ⟨8, 2⟩ 16) := by
  decide +kernel
/-- `src/ctx.rs:252-253`. -/
example : tryAssert (β := Unit) G0 none "42".toList (lit "42") 100 0 = some (.ok true 0) := by decide +kernel
/-- `src/ctx.rs:339-344`. -/
example : value (ctor (num true 32 10 (digits 10)) "2026") = some (n 2026) := by decide +kernel

def date479 {β : Type} : Pat Char β := .sepOnce (lit "Dec") (lit ". ") (.between 1 2 (Unit.digit 10) .empty)
/-- `src/ctx.rs:484`. -/
example : find (β := Unit) G0 none "Dec. 19   What do people love about Rust?\n".toList date479
    .slice 100 0 = some (.ok (some "Dec. 19".toList) 7) := by decide +kernel
/-- `src/ctx.rs:559-564`. -/
def ver {β : Type} : Pat Char β :=
  .pat (.sepOnce (.sepOnce (digits 10) (lit ".") (digits 10)) (lit ".") (digits 10))
example : findAll (β := Unit) G0 none ("Stable: 1.92.0\nBeta: 1.93.0 (22 January, 2026, 33 days left)\n" ++
      "Nightly: 1.94.0 (5 March, 2026, 75 days left)\n").toList ver .slice 200 0 =
    some (.ok ["1.92.0".toList, "1.93.0".toList, "1.94.0".toList] 107) := by decide +kernel
/-- `src/ctx.rs:612-625` (two of the lines). -/
example : matchSeq (β := Unit) G0 none ("Dec. 19   What do people?\n" ++
      "Dec. 8      Making it easier\n").toList
    (.suf (.sepOnce date479 (skipWs (lit "")) (.many1 Unit.wild .empty)) (lit "\n")) .slice 200 0 =
    some (.ok ["Dec. 19   What do people?\n".toList, "Dec. 8      Making it easier\n".toList] 55) := by
  decide +kernel

/-- `src/ctx/regex.rs:102-108`. -/
example : value (ctor (num true 32 10 (.pre (lit "rust") (digits 10))) "rust2026") = some (n 2026) := by
  decide +kernel

/-- `src/ctx/regex.rs:257-312`: instructions of a circuit, in a context that skips
ASCII white space.  `And`, `Or`, … are the numbers 1 to 6 paired with the operands. -/
def sig257 : Pat Char Span := .many1 (Unit.digit 10) .empty
def wire257 : Pat Char Span := .many1 Unit.asciiLowercase .empty
def op257 : Pat Char Span := .or sig257 wire257
def inst (k : Nat) (p : Pat Char Span) : Pat Char Span := .map p fun v => .ok (.pair (sp k 0) v)
def src257 : Pat Char Span :=
  .or (inst 1 (.sepOnce op257 (lit "AND") op257)) (.or (inst 2 (.sepOnce op257 (lit "OR") op257))
    (.or (inst 3 (.sepOnce op257 (lit "LSHIFT") op257)) (.or (inst 4 (.sepOnce op257 (lit "RSHIFT") op257))
      (.or (inst 5 (.pre (lit "NOT") op257)) (inst 6 sig257)))))
def circuit : String :=
  "\n123 -> x\n456 -> y\nx AND y -> d\nx OR y -> e\nx LSHIFT 2 -> f\ny RSHIFT 2 -> g\nNOT x -> h\nNOT y -> i\n     "
def insts : Option (Val Span) :=
  value (con G0 (spanH (σ := Unit)) 100 (some (.many0 Unit.asciiWhitespace .empty)) circuit.toList
    (.collect (.sepOnce src257 (lit "->") wire257) 1) () 0)
/-- Element `i` of a vector. -/
def nth {β : Type} : Val β → Nat → Option (Val β)
  | .cons a _, 0 => some a
  | .cons _ l, i + 1 => nth l i
  | _, _ => none
example : insts.map vlen = some 8 := by decide +kernel
example : (insts.bind (nth · 0)) = some (.pair (.pair (sp 6 0) (sp 1 3)) (sp 8 1)) := by decide +kernel
example : (insts.bind (nth · 6)) = some (.pair (.pair (sp 5 0) (sp 80 1)) (sp 85 1)) := by decide +kernel

/-! ## `src/macro.rs` -/

/-- `ctx.ctor(&regex!(…))` on `s`. -/
def mac (ts : List Tok) (s : String) : Option (Val (D Char)) :=
  (Macro.regex ts).bind fun p => value (ctor p s)

/-- `src/macro.rs:14-16`. -/
example : mac [] "  !" = some (t " ") := by decide +kernel
example : mac [.punct '+'] "  !" = some (t "  ") := by decide +kernel
example : mac [.punct '*'] "!" = some (t "") := by decide +kernel
/-- `src/macro.rs:31-33`. -/
example : mac [.ident 'a', .punct '?'] "assert!" = some (t "a") := by decide +kernel
example : mac [.lit 'a', .punct '*'] "ssert!" = some (t "") := by decide +kernel
example : mac [.ident 'a', .punct '+'] "aaaassert!" = some (t "aaaa") := by decide +kernel
/-- `src/macro.rs:47-48`. -/
example : mac [.punct '.', .punct '+'] "hello world!" = some (t "hello world!") := by decide +kernel
example : mac [.punct '^', .punct '*'] "hello world!" = some (t "hello") := by decide +kernel
/-- `src/macro.rs:62-63`. -/
example : mac [.bracket [.ident 'h', .ident 'e', .ident 'l', .ident 'o']] "hello world!" =
    some (t "h") := by decide +kernel
example : mac [.bracket [.ident 'h', .ident 'e', .ident 'l', .ident 'o'], .punct '+'] "hello world!" =
    some (t "hello") := by decide +kernel
/-- `src/macro.rs:77-78`. -/
example : mac [.bracket [.ident 'a', .punct '-', .ident 'z'], .punct '*'] "hello world!" =
    some (t "hello") := by decide +kernel
example : mac [.bracket [.punct '^', .ident 'a', .punct '-', .ident 'g'], .punct '+'] "hello world!" =
    some (t "h") := by decide +kernel
/-- `src/macro.rs:92`. -/
example : mac [.paren [rng 'a' 'z', rng 'A' 'W', .item ' '], .punct '+'] "hello World!" =
    some (t "hello World") := by decide +kernel
/-- `src/macro.rs:276-282`. -/
example : value (ctorB (.enclose (litB "\"") (escapeStrval 34 92 (.mem [92, 34, 9])) (litB "\""))
      (by_ "\"abc\t\"")) = some (tB "abc\t") := by decide +kernel

/-! ## `src/map.rs` -/

/-- `src/map.rs:614, 636`. -/
example : fromLeI 4 [1, 2, 3, 4] = .ok 0x04030201 := by decide +kernel
example : fromBeI 4 [1, 2, 3, 4] = .ok 0x01020304 := by decide +kernel

/-- A mapper on numbers as the argument of `try_map`. -/
def onNum (f : Mapper Int Int) : Val (D Char) → Out (Val (D Char))
  | .base (.num x) => match f x with
    | .ok y => .ok (n y)
    | .err e => .err e
    | .panic => .panic
  | _ => .panic
def bd (a b : Int) : Mapper Int Int := bounded (fun x y => decide (x ≤ y)) (fun x y => decide (x < y)) a b
/-- `src/map.rs:697`. -/
example : value (ctor (.sep (.map (num true 32 10 (digits 10)) (onNum (bd 1 8))) (lit ",") true 1)
      "1,3,5,7,9") = some (.list [n 1, n 3, n 5, n 7]) := by decide +kernel
/-- `src/map.rs:803`. -/
example : value (ctor (.sep (.map (num true 32 10 (digits 10)) (onNum (withDefault (fun _ => 0) (bd 1 5))))
      (lit ",") true 1) "1,3,5,7,9") = some (.list [n 1, n 3, n 0, n 0, n 0]) := by decide +kernel
/-- `src/map.rs:861-863`. -/
example : matB (.consume (fixedSizeOutSize 11)) (11 :: by_ "helloworld!") 1 = some (.ok ⟨1, 11⟩ 12) := by
  decide +kernel

/-! ## `src/neu.rs` and `src/neu` -/

/-- `src/neu.rs:268-269, 292-293`. -/
example : mat (.times (RangeExpr.range 2 6).toCRange (.mem ['a', 'c', 'f', 'e']) .empty) "aaffeeeaccc" =
    some (.ok ⟨0, 5⟩ 5) := by decide +kernel
example : mat (.times (RangeExpr.range 2 6).toCRange (.mem ['a', 'c', 'f', 'e']) .empty) "acdde" =
    some (.ok ⟨0, 2⟩ 2) := by decide +kernel
/-- `src/neu.rs:317-320`. -/
example : mat (.between 1 6 (.mem ['a', 'b', 'c', 'd', 'e', 'f']) .empty) "aabbccgg" =
    some (.ok ⟨0, 6⟩ 6) := by decide +kernel
example : failed (mat (.between 1 6 (.mem ['a', 'b', 'c', 'd', 'e', 'f']) .empty) "0xbbb") = true := by
  decide +kernel
/-- `src/neu.rs:349-650`: the range units. -/
def inRange (e : RangeExpr) : Option (Res Span) := mat (.between 1 6 (.range e.toCRange) .empty) "aabbccgg"
example : inRange (.bounds (.incl 97) (.excl 103)) = some (.ok ⟨0, 6⟩ 6) := by decide +kernel
example : inRange (.range 97 103) = some (.ok ⟨0, 6⟩ 6) := by decide +kernel
example : inRange (.rangeFrom 97) = some (.ok ⟨0, 6⟩ 6) := by decide +kernel
example : inRange .rangeFull = some (.ok ⟨0, 6⟩ 6) := by decide +kernel
example : inRange (.rangeIncl 97 102) = some (.ok ⟨0, 6⟩ 6) := by decide +kernel
example : inRange (.rangeTo 103) = some (.ok ⟨0, 6⟩ 6) := by decide +kernel
example : inRange (.rangeToIncl 102) = some (.ok ⟨0, 6⟩ 6) := by decide +kernel
/-- `src/neu/bool.rs:60, 120`. -/
example : mat (count 6 .always) "abc%$#&" = some (.ok ⟨0, 6⟩ 6) := by decide +kernel
example : failed (mat (count 6 .never) "abc%$#&") = true := by decide +kernel

/-- `src/neu/cond.rs:46`: a closure that looks ahead. -/
def cond30 : Cond UInt8 Unit := .fn fun d o pr => match origAt d (o + pr.1) with
  | .ok l => .ok (!(by_ "\\\"").isPrefixOf l)
  | .err e => .err e
  | .panic => .panic
example : matB (.enclose (litB "\"") (.pat (.rep (.or (.many1 (.not (.item 34)) cond30) (litB "\\\""))
    (RangeExpr.rangeFrom 1).toCRange)) (litB "\"")) (by_ "\"Hello world from \\\"rust\\\"!\"") =
    some (.ok ⟨0, 28⟩ 28) := by decide +kernel
/-- `src/neu/cond.rs:151`. -/
def escape140 : Pat UInt8 Unit := .thenU (.item 92) (.item 34) .empty
example : matB (.enclose (litB "\"") (.pat (.rep (.or (.many1 (.not (.item 34))
    (.regex (.assert escape140 false))) escape140) (RangeExpr.rangeFrom 1).toCRange)) (litB "\""))
    (by_ "\"Hello world from \\\"rust\\\"!\"") = some (.ok ⟨0, 28⟩ 28) := by decide +kernel

/-- `src/neu/equal.rs:47-48`. -/
example : mat (count 3 (.equal 'A')) "AAAabcd" = some (.ok ⟨0, 3⟩ 3) := by decide +kernel
example : failed (mat (count 3 (.equal 'A')) "AAAabcd" 3) = true := by decide +kernel
/-- `src/neu/once.rs:50, 244`, `opt.rs:60, 256`, `times.rs:66, 81, 96, 111, 306`. -/
def hexU : Neu Char := .range (RangeExpr.range 97 103).toCRange
example : mat (.once hexU .empty) "aabbccgg" = some (.ok ⟨0, 1⟩ 1) := by decide +kernel
example : mat (.many1 hexU .empty) "aabbccgg" = some (.ok ⟨0, 6⟩ 6) := by decide +kernel
example : mat (.optU hexU .empty) "aabbccgg" = some (.ok ⟨0, 1⟩ 1) := by decide +kernel
example : mat (.many0 hexU .empty) "aabbccgg" = some (.ok ⟨0, 6⟩ 6) := by decide +kernel
example : mat (.between 1 6 hexU .empty) "aabbccgg" = some (.ok ⟨0, 6⟩ 6) := by decide +kernel
example : mat (.between 0 6 hexU .empty) "aabbccgg" = some (.ok ⟨0, 6⟩ 6) := by decide +kernel
example : mat (.between 2 usizeMax hexU .empty) "aabbccgg" = some (.ok ⟨0, 6⟩ 6) := by decide +kernel
example : mat (.times (RangeExpr.range 1 7).toCRange hexU .empty) "aabbccgg" = some (.ok ⟨0, 6⟩ 6) := by
  decide +kernel
/-- `src/neu/op_and.rs:23, 27, 177`. -/
def big : Neu Char := .and (Unit.digit 10) (.pred fun c => decide (55 < c.toNat))
example : mat (.between 1 3 big .empty) "899" = some (.ok ⟨0, 3⟩ 3) := by decide +kernel
example : mat (.between 1 3 big .empty) "99c" = some (.ok ⟨0, 2⟩ 2) := by decide +kernel
example : matB (.times (RangeExpr.rangeFrom 6).toCRange (.and (.pred fun b => decide (96 < b.toNat))
    (.pred fun b => decide (b.toNat < 123))) .empty) (by_ "abcedfgABCEE") = some (.ok ⟨0, 7⟩ 7) := by
  decide +kernel
/-- `src/neu/op_not.rs:22, 26, 130`. -/
example : mat (.between 1 3 (.not (Unit.digit 10)) .empty) "cc9" = some (.ok ⟨0, 2⟩ 2) := by decide +kernel
example : mat (.between 1 3 (.not (Unit.digit 10)) .empty) "c99" = some (.ok ⟨0, 1⟩ 1) := by decide +kernel
example : matB (.times (RangeExpr.rangeFrom 6).toCRange (.not Unit.asciiUppercase) .empty)
    (by_ "abcedfgABCEE") = some (.ok ⟨0, 7⟩ 7) := by decide +kernel
/-- `src/neu/op_or.rs:22, 26, 172`. -/
example : mat (.between 1 2 (.or (.item 'a') (.item 'b')) .empty) "abc" = some (.ok ⟨0, 2⟩ 2) := by
  decide +kernel
example : value (ctorB (.pre (litB "0x") (count 4 (.or Unit.asciiHexdigit (.or (.item 103) (.item 71)))))
      (by_ "0xcfag")) = some (tB "cfag") := by decide +kernel
/-- `src/neu/range.rs:239-240`. -/
example : mat (count 3 (rng 'a' 'f')) "adfwgh" = some (.ok ⟨0, 3⟩ 3) := by decide +kernel
example : failed (mat (count 3 (rng 'a' 'f')) "adfwgh" 3) = true := by decide +kernel

/-- `src/neu/prefix.rs:206-253`, the part `prefix_cnt('A', n, never()).times(n..=n)`. -/
def stars (k : Nat) (s : String) : Option (Res Span) :=
  timesP s.toList (fun c => decide (c = 'A')) (fun _ => false) (RangeExpr.rangeIncl k k).toCRange
    (PrefixState.new k) 0
example : stars 5 "AAAAA Palace Museum" = some (.ok ⟨0, 5⟩ 5) := by decide +kernel
example : failed (stars 5 "AAAA Wulong") = true := by decide +kernel
example : stars 4 "AAAA Wulong" = some (.ok ⟨0, 4⟩ 4) := by decide +kernel
example : failed (stars 2 "Terracotta Warriors") = true := by decide +kernel

/-- Two successive matches: the first ends at `k`, the second fails there. -/
def thenFails (u : Neu Char) (k c : Nat) (s : String) : Bool :=
  decide (mat (count c u) s = some (.ok ⟨0, k⟩ k)) && failed (mat (count c u) s k)

/-- `src/neu/units.rs:157-158, 182-183, 211-212, 236-237, 261-262, 286-287, 311-312, 336-337,
361-362, 386-387, 438-439, 485-486, 634-635`. -/
example : thenFails Unit.ascii 2 2 "ab❤e" = true := by decide +kernel
example : thenFails Unit.asciiAlphabetic 2 2 "ab%e" = true := by decide +kernel
example : thenFails Unit.asciiAlphanumeric 2 2 "8a%e" = true := by decide +kernel
example : thenFails Unit.asciiControl 2 2 "\r\n%e" = true := by decide +kernel
example : thenFails Unit.asciiDigit 2 2 "90fe" = true := by decide +kernel
example : thenFails Unit.asciiGraphic 2 2 "a%\r\n" = true := by decide +kernel
example : thenFails Unit.asciiHexdigit 2 2 "9fg0" = true := by decide +kernel
example : thenFails Unit.asciiLowercase 2 2 "efAE" = true := by decide +kernel
example : thenFails Unit.asciiPunctuation 2 2 "%%\nE" = true := by decide +kernel
example : thenFails Unit.asciiUppercase 2 2 "EFef" = true := by decide +kernel
example : thenFails Unit.control 4 2 "\u009c\u009cef" = true := by decide +kernel
example : thenFails (Unit.digit 10) 2 2 "54aa" = true := by decide +kernel
example : thenFails Unit.wild 2 2 "aa\r\n" = true := by decide +kernel
/-- `src/neu/units.rs:412-414`. -/
example : mat (count 1 Unit.asciiWhitespace) "    w abcd" = some (.ok ⟨0, 1⟩ 1) := by decide +kernel
example : mat (count 3 Unit.asciiWhitespace) "    w abcd" 1 = some (.ok ⟨1, 3⟩ 4) := by decide +kernel
example : failed (mat (count 1 Unit.asciiWhitespace) "    w abcd" 4) = true := by decide +kernel
/-- `src/neu/units.rs:586-588`. -/
example : mat (count 1 Unit.whitespace) "    abcd" = some (.ok ⟨0, 1⟩ 1) := by decide +kernel
example : mat (count 3 Unit.whitespace) "    abcd" 1 = some (.ok ⟨1, 4⟩ 5) := by decide +kernel
example : failed (mat (count 1 Unit.whitespace) "    abcd" 5) = true := by decide +kernel
/-- `src/neu/units.rs:721-722`. -/
example : mat (.many1 Unit.word .empty) "TheLolipop_1\r\n" = some (.ok ⟨0, 12⟩ 12) := by decide +kernel
example : failed (mat (.many1 Unit.word .empty) "TheLolipop_1\r\n" 12) = true := by decide +kernel

/-! ## `src/regex.rs` and `src/regex` -/

/-- `src/regex.rs:261-265, 292-297`. -/
example : mat (.once (.item '+') .empty) "+2077" = some (.ok ⟨0, 1⟩ 1) := by decide +kernel
example : mat (.many1 (rng '0' '9') .empty) "+2077" 1 = some (.ok ⟨1, 4⟩ 5) := by decide +kernel
example : failed (mat (.once (.item '+') .empty) "2077") = true := by decide +kernel
example : mat (.optU (.item '+') .empty) "+2077" = some (.ok ⟨0, 1⟩ 1) := by decide +kernel
example : mat (.optU (.item '+') .empty) "2077" = some (.ok ⟨0, 0⟩ 0) := by decide +kernel
/-- `src/regex.rs:323-326, 353-356`. -/
example : mat (.many0 (rng '0' '9') .empty) "2048mb" = some (.ok ⟨0, 4⟩ 4) := by decide +kernel
example : mat (.many0 (rng '0' '9') .empty) "rust2021" = some (.ok ⟨0, 0⟩ 0) := by decide +kernel
example : mat (.many1 (rng '0' '9') .empty) "2048mb" = some (.ok ⟨0, 4⟩ 4) := by decide +kernel
example : failed (mat (.many1 (rng '0' '9') .empty) "rust2021") = true := by decide +kernel
/-- `src/regex.rs:381-382`. -/
example : mat (.between 0 usizeMax (.range (RangeExpr.range 97 123).toCRange) .empty) "example.com" =
    some (.ok ⟨0, 7⟩ 7) := by decide +kernel
example : origSub "example.com".toList 0 7 = .ok "example".toList := by decide +kernel
/-- `src/regex.rs:420-421`. -/
example : mat (.between 0 usizeMax (.or (.range (RangeExpr.range 97 123).toCRange) (.item '.'))
    (.fn fun d o pr => if pr.2 ≠ '.' then .ok true else match origAt d o with
      | .ok l => .ok (match dropB l (pr.1 + 1) with
        | some r => r.contains '.'
        | none => false)
      | .err e => .err e
      | .panic => .panic)) "domain.example.com" = some (.ok ⟨0, 14⟩ 14) := by decide +kernel

def alpha1 {β : Type} : Pat Char β := .many1 Unit.asciiAlphabetic .empty
def decls {β : Type} (id : Pat Char β) (ks : List (Option (Val β))) (seps : List String) :
    List (Pat Char β × Option (Val β)) :=
  (seps.zip ks).map fun x => (.sepOnce alpha1 (lit x.1) id, x.2)
/-- `src/regex.rs:454-456`. -/
def vec454 : Pat Char (D Char) := .choice .vector (decls alpha1 [none, none, none] ["", "*", "&"])
example : value (ctorSkip ws vec454 "int a") = some (.pair (t "int") (t "a")) := by decide +kernel
example : value (ctorSkip ws vec454 "int *a") = some (.pair (t "int") (t "a")) := by decide +kernel
example : value (ctorSkip ws vec454 "int &a") = some (.pair (t "int") (t "a")) := by decide +kernel
/-- `src/regex.rs:481-482`. -/
def vec481 : Pat Char Unit := .ltm .vector (decls .empty [none, none, none] [" ", " *", " &"])
example : spanOf (mat vec481 "int &") = some ⟨0, 5⟩ := by decide +kernel
example : spanOf (mat vec481 "int *") = some ⟨0, 5⟩ := by decide +kernel
/-- `src/regex.rs:514-525`. -/
def vec514 : Pat Char (D Char) :=
  .choice .pairVector (decls alpha1 [some (n 0), some (n 1), some (n 2)] ["", "*", "&"])
example : value (ctorSkip ws vec514 "int a") = some (.pair (.pair (t "int") (t "a")) (n 0)) := by
  decide +kernel
example : value (ctorSkip ws vec514 "int *a") = some (.pair (.pair (t "int") (t "a")) (n 1)) := by
  decide +kernel
example : value (ctorSkip ws vec514 "int &a") = some (.pair (.pair (t "int") (t "a")) (n 2)) := by
  decide +kernel
/-- `src/regex.rs:560-571`. -/
def vec560 : Pat Char (D Char) :=
  .ltm .pairVector (decls .empty [some (n 0), some (n 1), some (n 2)] ["", "*", "&"])
example : value (ctorSkip ws vec560 "int ") = some (.pair (.pair (t "int") (t "")) (n 0)) := by
  decide +kernel
example : value (ctorSkip ws vec560 "int *") = some (.pair (.pair (t "int") (t "")) (n 1)) := by
  decide +kernel
example : value (ctorSkip ws vec560 "int &") = some (.pair (.pair (t "int") (t "")) (n 2)) := by
  decide +kernel

/-- `src/regex.rs:592, 630, 679, 736`. -/
def langs {β : Type} : List (Pat UInt8 β × Option (Val β)) := alts [litB "rust", litB "jawa", litB "golang"]
example : matB (.choice .array langs) (by_ "rust is so awesome!") = some (.ok ⟨0, 4⟩ 4) := by decide +kernel
example : matB (.choice .pairArray langs) (by_ "golang is so awesome!") = some (.ok ⟨0, 6⟩ 6) := by
  decide +kernel
example : matB (.choice .pairSlice langs) (by_ "jawa is so awesome!") = some (.ok ⟨0, 4⟩ 4) := by
  decide +kernel
/-- `src/regex.rs:611, 650, 706, 765`. -/
example : matB (.ltm .array (alts [litB "go", litB "golang"])) (by_ "golang is so awesome!") =
    some (.ok ⟨0, 6⟩ 6) := by decide +kernel
example : spanOf (matB (.ltm .slice (alts [litB "g", litB "go", litB "golang"])) (by_ "go is so awesome!")) =
    some ⟨0, 2⟩ := by decide +kernel
example : matB (.ltm .pairArray (alts [litB "http", litB "https"])) (by_ "https://docs.example.dev") =
    some (.ok ⟨0, 5⟩ 5) := by decide +kernel

/-- `src/regex/anchor.rs:42, 104-106, 142-143, 205-207`. -/
example : mat .start "aabbccgg" = some (.ok ⟨0, 0⟩ 0) := by decide +kernel
example : mat (lit "rust") "rust2023" = some (.ok ⟨0, 4⟩ 4) := by decide +kernel
example : mat (count 4 (Unit.digit 10)) "rust2023" 4 = some (.ok ⟨4, 4⟩ 8) := by decide +kernel
example : mat (.consume 8) "aabbccgg" = some (.ok ⟨0, 8⟩ 8) := by decide +kernel
example : mat .anchorEnd "aabbccgg" 8 = some (.ok ⟨8, 0⟩ 8) := by decide +kernel
/-- `src/regex/assert.rs:121, 141, 161`. -/
example : matB (.assert (.choice .array langs) false) (by_ "javascript is not awesome!") =
    some (.ok ⟨0, 0⟩ 0) := by decide +kernel
example : mat (.assert (lit "]]]") false) "[123,456,789]" = some (.ok ⟨0, 0⟩ 0) := by decide +kernel
example : matB (.assert (litB "rust") true) (by_ "rust is so awesome!") = some (.ok ⟨0, 0⟩ 0) := by
  decide +kernel
/-- `src/regex/builder.rs:24, 33`. -/
example : value (ctor (num false 64 10 (.build (lit "rust") fun _ o s =>
      .ok (.times (RangeExpr.rangeIncl s.len s.len).toCRange Unit.asciiAlphanumeric .empty) o))
      "rust2028") = some (n 2028) := by decide +kernel
example : value (ctor (.build (lit "rust") fun _ _ s =>
      .ok (.thn (.consume s.len) (.many1 Unit.asciiAlphanumeric .empty)) s.beg) "rust10086") =
    some (t "rust10086") := by decide +kernel
/-- `src/regex/consume.rs:43, 102, 140, 195`, `empty.rs:42, 93`, `fail.rs:93`. -/
example : mat (.consume 8) "rust2023" = some (.ok ⟨0, 8⟩ 8) := by decide +kernel
example : mat (.consume 6) "aabbccgg" = some (.ok ⟨0, 6⟩ 6) := by decide +kernel
example : matB .consumeAll (by_ "rust is so awesome!") = some (.ok ⟨0, 19⟩ 19) := by decide +kernel
example : matB .empty (by_ "rust is so awesome!") = some (.ok ⟨0, 0⟩ 0) := by decide +kernel
example : failed (mat .fail "aabbccgg") = true := by decide +kernel
/-- `src/regex/literal.rs:39, 53, 188, 204`. -/
example : matB (litB "magic") (by_ "magic 0xff") = some (.ok ⟨0, 5⟩ 5) := by decide +kernel
example : mat (lit "hello") "hello world" = some (.ok ⟨0, 5⟩ 5) := by decide +kernel
example : matB (.lit [0xff, 0xff]) [0xff, 0xff, 0x12] = some (.ok ⟨0, 2⟩ 2) := by decide +kernel

/-! ## `src/regex/rec.rs` -/

/-- `src/regex/rec.rs:29-35`. -/
def nested : Pat UInt8 (D UInt8) :=
  .or (.enclose (litB "{") (.or (.cell 0) (.once Unit.asciiLowercase .empty)) (litB "}"))
    (.enclose (litB "[") (.or (.cell 0) (.once Unit.asciiLowercase .empty)) (litB "]"))
def nestedIn (s : String) : Option (Val (D UInt8)) :=
  value (con (fun i => if i = 0 then some nested else none) dH 100 none (by_ s) nested () 0)
/-- `src/regex/rec.rs:37-39`. -/
example : nestedIn "[a]" = some (tB "a") := by decide +kernel
example : nestedIn "{{[[{[{b}]}]]}}" = some (tB "b") := by decide +kernel
example : nestedIn "[{{{[c]}}}]" = some (tB "c") := by decide +kernel

/-- `src/regex/rec.rs:131-147`: `Xml::Element { name, child }` is `(name, child)`,
`Xml::Enclose(name)` is `Some(name)`. -/
def tag131 : Pat Char (D Char) := .many0 Unit.asciiAlphabetic .empty
def xml : Pat Char (D Char) :=
  .rep (.or (.map (.thn (.thn (.enclose (lit "<") tag131 (lit ">")) (.cell 0))
      (.enclose (lit "</") tag131 (lit ">"))) fun
        | .pair (.pair l c) r => if l = r then .ok (.pair l c) else .err (.uid 0)
        | _ => .panic)
    (.map (.enclose (lit "<") tag131 (lit "/>")) fun v => .ok (.some v))) (RangeExpr.rangeFrom 1).toCRange
/-- `src/regex/rec.rs:148-163`. -/
example : value (con (fun i => if i = 0 then some xml else none) dH 100 none
      "<language><rust><linux/></rust><cpp><windows/></cpp></language>".toList xml () 0) =
    some (.list [.pair (t "language") (.list [.pair (t "rust") (.list [.some (t "linux")]),
      .pair (t "cpp") (.list [.some (t "windows")])])]) := by decide +kernel

/-! ## `src/span.rs:246-278, 468-504` -/

/-- `while storer.try_cap(id, ctx, p).is_ok() {}`, with the offset the context is left with. -/
def capLoop (p : Pat Char Unit) (id : Nat) (d : List Char) : Nat → VecStorer → Nat → VecStorer × Nat
  | 0, v, o => (v, o)
  | k + 1, v, o => match VecStorer.call G0 none d 20 v o (.cap id p) with
    | some (some (.span _, v', o')) => capLoop p id d k v' o'
    | some (some (_, v', o')) => (v', o')
    | _ => (v, o)

def storer246 : VecStorer :=
  let d := "11helloworld!".toList
  let a := capLoop (.once (Unit.digit 10) .empty) 0 d 20 (VecStorer.new 3) 0
  let b := capLoop (.once Unit.asciiAlphabetic .empty) 1 d 20 a.1 a.2
  (capLoop (lit "!") 2 d 20 b.1 b.2).1

/-- `src/span.rs:264-274`. -/
example : (List.range 3).map (fun id => ((storer246.spans id).getD []).map
      (getBySpan "11helloworld!".toList)) =
    [[some ['1'], some ['1']],
     ["h", "e", "l", "l", "o", "w", "o", "r", "l", "d"].map fun s => some s.toList,
     [some ['!']]] := by decide +kernel

end Neure.Conform
