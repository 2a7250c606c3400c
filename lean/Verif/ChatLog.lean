import Verif.Api
import Verif.Classes
/-!
# The chat log of the documentation

`src/ctor.rs:796-803`, the example of `prefix`: lines such as `[20:59] *** jpn left`.
-/

namespace Neure.Chat

/-- `num`, `src/ctor.rs:798`: `neu::digit(10).count::<2>()`. -/
def num : Pat Char (List Char) := .between 2 2 (Unit.digit 10) .empty

/-- `time`, `src/ctor.rs:799-800`: `num.sep_once(":", num).enclose("[", "]").skip_ws()`. -/
def time : Pat Char (List Char) :=
  Api.skipWs (.enclose (.lit ['[']) (.sepOnce num (.lit [':']) num) (.lit [']']))

/-- `star`, `src/ctor.rs:801`: `'*'.count::<3>().skip_ws()`. -/
def star : Pat Char (List Char) := Api.skipWs (.between 3 3 (.item '*') .empty)

/-- `name`, `src/ctor.rs:802`: `neu::whitespace().not().many1().skip_ws()`. -/
def name : Pat Char (List Char) := Api.skipWs (.many1 (.not Unit.whitespace) .empty)

/-- `status`, `src/ctor.rs:803`: `"left".or("joined").skip_ws()`. -/
def status : Pat Char (List Char) :=
  Api.skipWs (.or (.lit ['l', 'e', 'f', 't']) (.lit ['j', 'o', 'i', 'n', 'e', 'd']))

/-- One record, `src/ctor.rs:804-805`: `time.then(name.prefix(star).then(status))`. -/
def line : Pat Char (List Char) := .thn time (.thn (.pre star name) status)

/-- All records, `src/ctor.rs:805`: `.repeat(1..)`. -/
def log : Pat Char (List Char) := .rep line ⟨.incl 1, .unb⟩

end Neure.Chat
