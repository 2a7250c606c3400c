import Verif.Utf8
import Verif.CoreInv
import Verif.ParamSpec
/-!
# The same grammar on a string and on its bytes

A relation between patterns for `str` and patterns for `[u8]`: the same
combinators, literals replaced by their bytes, and units that agree on ASCII and
either reject everything else (on both sides) or, for unlimited runs, accept
everything else (on both sides).  `rv` says which values correspond; it plays no role in
matching, but mappers, tags and dynamic builders have to respect it, so that building
corresponds too (`Utf8Ctor.lean`).
-/

namespace Neure

set_option linter.unusedSectionVars false
set_option linter.unusedSimpArgs false

variable {β β' : Type} {rv : Val β → Val β' → Prop}

/-- The byte of an ASCII character. -/
def asciiByte (c : Char) : UInt8 := UInt8.ofNat c.toNat

/-- The two units agree on ASCII; on everything else both always answer `k`.
They ask for the same minimal input length (always 1 for units built from ASCII
items and ranges). -/
structure UnitSim (k : Bool) (u : Neu Char) (v : Neu UInt8) : Prop where
  ascii : ∀ c : Char, c.toNat < 128 → u.isMatch c = v.isMatch (asciiByte c)
  wide : ∀ c : Char, 128 ≤ c.toNat → u.isMatch c = k
  high : ∀ b : UInt8, 128 ≤ b.toNat → v.isMatch b = k
  len : u.minLength = v.minLength

mutual
/-- Related extra conditions of units. -/
inductive CondSim (rv : Val β → Val β' → Prop) : Cond Char β → Cond UInt8 β' → Prop where
  | empty : CondSim rv .empty .empty
  | regex {p : Pat Char β} {q : Pat UInt8 β'} : PatSim rv p q → CondSim rv (.regex p) (.regex q)
  | fn {f g} : (∀ d o i x, Valid d (o + i) → x.toNat < 128 → f d o (i, x) = g (utf8 d) o (i, asciiByte x)) →
      CondSim rv (.fn f) (.fn g)

/-- Related patterns. -/
inductive PatSim (rv : Val β → Val β' → Prop) : Pat Char β → Pat UInt8 β' → Prop where
  | empty : PatSim rv .empty .empty
  | fail : PatSim rv .fail .fail
  | start : PatSim rv .start .start
  | anchorEnd : PatSim rv .anchorEnd .anchorEnd
  | consume (n : Nat) : PatSim rv (.consume n) (.consume n)
  | consumeAll : PatSim rv .consumeAll .consumeAll
  | lit (l : List Char) : PatSim rv (.lit l) (.lit (utf8 l))
  | native {f g} : (∀ d o, Valid d o → f d o = g (utf8 d) o) → PatSim rv (.native f) (.native g)
  | once {u v c e} : UnitSim false u v → CondSim rv c e → PatSim rv (.once u c) (.once v e)
  | many1 {u v c e} : UnitSim false u v → CondSim rv c e → PatSim rv (.many1 u c) (.many1 v e)
  | many1Wide {u v} : UnitSim true u v → PatSim rv (.many1 u .empty) (.many1 v .empty)
  | optU {u v c e} : UnitSim false u v → CondSim rv c e → PatSim rv (.optU u c) (.optU v e)
  | many0 {u v c e} : UnitSim false u v → CondSim rv c e → PatSim rv (.many0 u c) (.many0 v e)
  | many0Wide {u v} : UnitSim true u v → PatSim rv (.many0 u .empty) (.many0 v .empty)
  | between {u v c e} (m n : Nat) : UnitSim false u v → CondSim rv c e →
      PatSim rv (.between m n u c) (.between m n v e)
  | times {u v c e} (r : CRange) : UnitSim false u v → CondSim rv c e → PatSim rv (.times r u c) (.times r v e)
  | thenU {u v u' v' c e} : UnitSim false u v → UnitSim false u' v' → CondSim rv c e →
      PatSim rv (.thenU u u' c) (.thenU v v' e)
  | assert {p q} (b : Bool) : PatSim rv p q → PatSim rv (.assert p b) (.assert q b)
  | thn {a a' b b'} : PatSim rv a a' → PatSim rv b b' → PatSim rv (.thn a b) (.thn a' b')
  | ifThen {a a' t t' b b'} : PatSim rv a a' → PatSim rv t t' → PatSim rv b b' → PatSim rv (.ifThen a t b) (.ifThen a' t' b')
  | pre {a a' b b'} : PatSim rv a a' → PatSim rv b b' → PatSim rv (.pre a b) (.pre a' b')
  | suf {a a' b b'} : PatSim rv a a' → PatSim rv b b' → PatSim rv (.suf a b) (.suf a' b')
  | enclose {a a' t t' b b'} : PatSim rv a a' → PatSim rv t t' → PatSim rv b b' → PatSim rv (.enclose a t b) (.enclose a' t' b')
  | sepOnce {a a' t t' b b'} : PatSim rv a a' → PatSim rv t t' → PatSim rv b b' → PatSim rv (.sepOnce a t b) (.sepOnce a' t' b')
  | or {a a' b b'} : PatSim rv a a' → PatSim rv b b' → PatSim rv (.or a b) (.or a' b')
  | longest {a a' b b'} : PatSim rv a a' → PatSim rv b b' → PatSim rv (.longest a b) (.longest a' b')
  | opt {p q} : PatSim rv p q → PatSim rv (.opt p) (.opt q)
  | choice (e : Error) {l m} : AltSim rv l m → PatSim rv (.choice e l) (.choice e m)
  | ltm (e : Error) {l m} : AltSim rv l m → PatSim rv (.ltm e l) (.ltm e m)
  | rep {p q} (r : CRange) : PatSim rv p q → PatSim rv (.rep p r) (.rep q r)
  | rep2 {p q} (m n : Nat) : PatSim rv p q → PatSim rv (.rep2 p m n) (.rep2 q m n)
  | collect {p q} (m : Nat) : PatSim rv p q → PatSim rv (.collect p m) (.collect q m)
  | sep {p q s t} (skip : Bool) (m : Nat) : PatSim rv p q → PatSim rv s t → PatSim rv (.sep p s skip m) (.sep q t skip m)
  | sep2 {p q s t} (skip : Bool) (m n : Nat) : PatSim rv p q → PatSim rv s t →
      PatSim rv (.sep2 p s skip m n) (.sep2 q t skip m n)
  | sepCollect {p q s t} (skip : Bool) (m : Nat) : PatSim rv p q → PatSim rv s t →
      PatSim rv (.sepCollect p s skip m) (.sepCollect q t skip m)
  | branch {f g a a' b b'} : (∀ d o, Valid d o → f d o = g (utf8 d) o) → PatSim rv a a' → PatSim rv b b' →
      PatSim rv (.branch f a b) (.branch g a' b')
  | map {p q f g} : PatSim rv p q → (∀ v w, rv v w → ROut rv (f v) (g w)) → PatSim rv (.map p f) (.map q g)
  | pat {p q} : PatSim rv p q → PatSim rv (.pat p) (.pat q)
  | build {p q f g} : PatSim rv p q → (∀ d o s, Valid d o → BuiltSim rv d (f d o s) (g (utf8 d) o s)) →
      PatSim rv (.build p f) (.build q g)
  | dthen {p q f g} : PatSim rv p q → (∀ d o v w, Valid d o → rv v w → BuiltSim rv d (f d o v) (g (utf8 d) o w)) →
      PatSim rv (.dthen p f) (.dthen q g)
  | cell (i : Nat) : PatSim rv (.cell i) (.cell i)

/-- Related alternatives. -/
inductive AltSim (rv : Val β → Val β' → Prop) : List (Pat Char β × Option (Val β)) → List (Pat UInt8 β' × Option (Val β')) → Prop where
  | nil : AltSim rv [] []
  | cons {p q v w l m} : PatSim rv p q → (∀ a b, rv a b → rv (tagged v a) (tagged w b)) → AltSim rv l m → AltSim rv ((p, v) :: l) ((q, w) :: m)

/-- Related results of builder closures, on a string and on its bytes; they leave a
boundary. -/
inductive BuiltSim (rv : Val β → Val β' → Prop) : List Char → Res (Pat Char β) → Res (Pat UInt8 β') → Prop where
  | ok {d p q o} : Valid d o → PatSim rv p q → BuiltSim rv d (.ok p o) (.ok q o)
  | err {d o} (e : Error) : Valid d o → BuiltSim rv d (.err e o) (.err e o)
  | panic {d} : BuiltSim rv d .panic .panic
end

/-- Related contents of the recursive handles. -/
def RulesSim (rv : Val β → Val β' → Prop) (G : Rules Char β) (G' : Rules UInt8 β') : Prop :=
  ∀ i, match G i, G' i with
    | none, none => True
    | some p, some q => PatSim rv p q
    | _, _ => False

/-- Related policies. -/
def PolSim (rv : Val β → Val β' → Prop) (pol : Option (Pat Char β)) (pol' : Option (Pat UInt8 β')) : Prop :=
  match pol, pol' with
  | none, none => True
  | some p, some q => PatSim rv p q
  | _, _ => False

/-! ## Lemmas -/

theorem encode_ascii {c : Char} (h : c.toNat < 128) : String.utf8EncodeChar c = [asciiByte c] := by
  unfold String.utf8EncodeChar
  dsimp only
  have : c.val.toNat ≤ 0x7f := by show c.toNat ≤ 127; omega
  rw [if_pos this]; rfl

theorem encode_wide {c : Char} (h : 128 ≤ c.toNat) : ∀ b ∈ String.utf8EncodeChar c, 128 ≤ b.toNat := by
  intro b hb
  have h : 128 ≤ c.val.toNat := h
  unfold String.utf8EncodeChar at hb
  dsimp only at hb
  split at hb
  · omega
  · split at hb
    · simp only [List.mem_cons, List.not_mem_nil, or_false] at hb
      rcases hb with rfl | rfl <;> simp <;> omega
    · split at hb
      · simp only [List.mem_cons, List.not_mem_nil, or_false] at hb
        rcases hb with rfl | rfl | rfl <;> simp <;> omega
      · simp only [List.mem_cons, List.not_mem_nil, or_false] at hb
        rcases hb with rfl | rfl | rfl | rfl <;> simp <;> omega

theorem size_ascii {c : Char} (h : c.toNat < 128) : Item.size c = 1 := by
  show c.utf8Size = 1
  rw [← String.length_utf8EncodeChar, encode_ascii h]; rfl

theorem head_index {ι : Type} [Item ι] (i : Nat) (l : List ι) :
    (indices i l).head?.map (·.1) = if l = [] then none else some i := by
  cases l <;> simp [indices]

theorem utf8_eq_nil {l : List Char} : utf8 l = [] ↔ l = [] := by
  cases l with
  | nil => simp
  | cons c l => simp [utf8_cons, encodeChar_ne_nil c]

theorem heads (i : Nat) (l : List Char) :
    (indices i (utf8 l)).head?.map (·.1) = (indices i l).head?.map (·.1) := by
  rw [head_index, head_index]
  simp only [utf8_eq_nil]

theorem valid_bytes {d : List Char} {o : Nat} (h : Valid d o) : Valid (utf8 d) o := by
  obtain ⟨pre, rest, rfl, rfl⟩ := h
  exact ⟨utf8 pre, utf8 rest, utf8_append _ _, by rw [blen_bytes, utf8_length]⟩

theorem dropB_bytes {d rest : List Char} {o : Nat} (h : dropB d o = some rest) :
    dropB (utf8 d) o = some (utf8 rest) := by
  obtain ⟨pre, rfl, rfl⟩ := dropB_eq_some.mp h
  rw [utf8_append, ← utf8_length, ← blen_bytes]
  exact dropB_append _ _

theorem blen_utf8 (d : List Char) : blen (utf8 d) = blen d := by rw [blen_bytes, utf8_length]

section Leaf

variable {mt : List Char → Pat Char β → Nat → Option (Res Span)}
  {mt' : List UInt8 → Pat UInt8 β' → Nat → Option (Res Span)}

theorem check_sim {c : Cond Char β} {e : Cond UInt8 β'} (hc : CondSim rv c e)
    (hm : ∀ p q, c = .regex p → e = .regex q → PatSim rv p q → ∀ d, mt' (utf8 d) q 0 = mt d p 0) {d : List Char} {o i : Nat}
    (hv : Valid d (o + i)) (x : Char) (hx : x.toNat < 128) :
    check mt' (utf8 d) o e (i, asciiByte x) = check mt d o c (i, x) := by
  cases hc with
  | empty => rfl
  | fn h => simp only [check, h d o i x hv hx]
  | regex h =>
    obtain ⟨rest, hr⟩ := valid_iff_dropB.mp hv
    simp only [check]
    rw [origAt_ok.mpr hr, origAt_ok.mpr (dropB_bytes hr)]
    simp only
    rw [hm _ _ rfl rfl h rest]

/-- Testing the item at a boundary. -/
theorem test_sim {u : Neu Char} {v : Neu UInt8} {c : Cond Char β} {e : Cond UInt8 β'}
    (hu : UnitSim false u v) (hc : CondSim rv c e)
    (hm : ∀ p q, c = .regex p → e = .regex q → PatSim rv p q → ∀ d, mt' (utf8 d) q 0 = mt d p 0) {d : List Char} {o i : Nat} (hv : Valid d (o + i)) (x : Char) :
    (x.toNat < 128 ∧ utf8 [x] = [asciiByte x] ∧
      testItem mt' (utf8 d) o v e (i, asciiByte x) = testItem mt d o u c (i, x)) ∨
    (testItem mt d o u c (i, x) = some (.ok false) ∧ ∃ b t, utf8 [x] = b :: t ∧
      testItem mt' (utf8 d) o v e (i, b) = some (.ok false)) := by
  by_cases hx : x.toNat < 128
  · left
    refine ⟨hx, by simp [utf8, encode_ascii hx], ?_⟩
    simp only [testItem, hu.ascii x hx, check_sim hc hm hv x hx]
  · right
    refine ⟨by simp [testItem, hu.wide x (by omega)], ?_⟩
    obtain ⟨b, t, h1, -, -⟩ := encodeChar_shape x
    refine ⟨b, t, by simp [utf8, h1], ?_⟩
    have : 128 ≤ b.toNat := encode_wide (c := x) (by omega) b (by rw [h1]; simp)
    simp [testItem, hu.high b this]

/-- Related states after scanning. -/
def ScanSim (r' : Option (Out (Scan UInt8))) (r : Option (Out (Scan Char))) : Prop :=
  match r', r with
  | none, none => True
  | some .panic, some .panic => True
  | some (.err e), some (.err e') => e = e'
  | some (.ok s'), some (.ok s) => s'.cnt = s.cnt ∧ s'.beg = s.beg ∧ s'.stop = s.stop ∧
      (s.stop = none → s'.rest.head?.map (·.1) = s.rest.head?.map (·.1))
  | _, _ => False

theorem scan_sim {u : Neu Char} {v : Neu UInt8} {c : Cond Char β} {e : Cond UInt8 β'}
    (hu : UnitSim false u v) (hc : CondSim rv c e)
    (hm : ∀ p q, c = .regex p → e = .regex q → PatSim rv p q → ∀ d, mt' (utf8 d) q 0 = mt d p 0) {d : List Char} {o : Nat} (more : Nat → Bool)
    (i cnt : Nat) (beg : Option Nat) (rest : List Char) (hr : dropB d (o + i) = some rest) :
    ScanSim (scan (testItem mt' (utf8 d) o v e) more cnt beg (indices i (utf8 rest)))
      (scan (testItem mt d o u c) more cnt beg (indices i rest)) := by
  induction rest generalizing i cnt beg with
  | nil => simp [scan, indices, ScanSim]
  | cons x rest ih =>
    have hv : Valid d (o + i) := valid_iff_dropB.mpr ⟨_, hr⟩
    have ux : utf8 (x :: rest) = utf8 [x] ++ utf8 rest := utf8_append [x] rest
    simp only [indices, scan]
    by_cases hmo : more cnt = true
    · rw [if_pos hmo]
      rcases test_sim hu hc hm hv x with ⟨hx, h1, h2⟩ | ⟨h1, b, t, h2, h3⟩
      · rw [ux, h1]
        simp only [List.singleton_append, indices, scan]
        rw [if_pos hmo, h2]
        have hs1 : Item.size x = 1 := size_ascii hx
        have hs2 : Item.size (asciiByte x) = 1 := rfl
        match hT : testItem mt d o u c (i, x) with
        | none => trivial
        | some .panic => trivial
        | some (.err e) => rfl
        | some (.ok false) => simp [ScanSim]
        | some (.ok true) =>
          dsimp only
          rw [hs1, hs2]
          apply ih
          have := dropB_add (k := 1) hr
          rw [Nat.add_assoc] at this
          rw [this]
          show (if Item.size x ≤ 0 + 1 then dropB rest (0 + 1 - Item.size x) else none) = some rest
          rw [hs1]; simp
      · rw [ux, h2]
        simp only [List.cons_append, indices, scan]
        rw [if_pos hmo, h1, h3]
        simp [ScanSim]
    · rw [if_neg hmo]
      have hb : ∃ b t, utf8 (x :: rest) = b :: t := by
        cases hz : utf8 (x :: rest) with
        | nil => rw [utf8_eq_nil] at hz; cases hz
        | cons b t => exact ⟨b, t, rfl⟩
      obtain ⟨b, t, hb⟩ := hb
      rw [hb]
      simp only [indices, scan]
      rw [if_neg hmo]
      simp [ScanSim]

/-- Unlimited runs of units that accept everything beyond ASCII. -/
theorem scan_wide {u : Neu Char} {v : Neu UInt8} (hu : UnitSim true u v) (d : List Char) (d' : List UInt8) (o : Nat)
    (i cnt cnt' : Nat) (beg : Option Nat) (rest : List Char) :
    ∃ s s', scan (testItem mt d o u .empty) (fun _ => true) cnt beg (indices i rest) = some (.ok s) ∧
      scan (testItem mt' d' o v .empty) (fun _ => true) cnt' beg (indices i (utf8 rest)) = some (.ok s') ∧
      s'.beg = s.beg ∧ s'.stop = s.stop := by
  induction rest generalizing i cnt cnt' beg with
  | nil => exact ⟨_, _, rfl, rfl, rfl, rfl⟩
  | cons x rest ih =>
    rw [utf8_cons]
    simp only [indices, scan, if_true, testItem, check]
    by_cases hx : x.toNat < 128
    · rw [encode_ascii hx, hu.ascii x hx]
      simp only [List.singleton_append, indices, scan, if_true, testItem, check]
      rw [size_ascii hx]
      cases v.isMatch (asciiByte x) with
      | true => exact ih (i + 1) (cnt + 1) (cnt' + 1) _
      | false => exact ⟨_, _, rfl, rfl, rfl, rfl⟩
    · have hx : 128 ≤ x.toNat := by omega
      rw [hu.wide x hx]
      -- all the bytes of `x` are accepted
      have adv : ∀ (bs tl : List UInt8) (i cnt : Nat) (beg : Option Nat), (∀ b ∈ bs, 128 ≤ b.toNat) → beg ≠ none →
          scan (testItem mt' d' o v .empty) (fun _ => true) cnt beg (indices i (bs ++ tl)) =
          scan (testItem mt' d' o v .empty) (fun _ => true) (cnt + bs.length) beg (indices (i + bs.length) tl) := by
        intro bs
        induction bs with
        | nil => intros; rfl
        | cons b bs ihb =>
          intro tl i cnt beg hb hne
          simp only [List.cons_append, indices, scan, if_true, testItem, check, hu.high b (hb b (by simp))]
          have hbeg : beg.or (some i) = beg := by cases beg <;> simp_all
          rw [hbeg, show Item.size b = 1 from rfl, ihb tl (i + 1) (cnt + 1) beg (fun x hx => hb x (by simp [hx])) hne]
          simp only [List.length_cons]
          rw [show cnt + 1 + bs.length = cnt + (bs.length + 1) by omega,
            show i + 1 + bs.length = i + (bs.length + 1) by omega]
      obtain ⟨b, t, he, -, -⟩ := encodeChar_shape x
      have hwide := encode_wide hx
      rw [he] at hwide
      have hlen : t.length + 1 = Item.size x := by
        show _ = x.utf8Size
        rw [← String.length_utf8EncodeChar, he]; rfl
      rw [he]
      simp only [List.cons_append, indices, scan, if_true, testItem, check, hu.high b (hwide b (by simp))]
      have hne : beg.or (some i) ≠ none := by cases beg <;> simp
      have := adv t (utf8 rest) (i + 1) (cnt' + 1) (beg.or (some i)) (fun x hx => hwide x (by simp [hx])) hne
      simp only [testItem, check] at this
      rw [show Item.size b = 1 from rfl, this, show i + 1 + t.length = i + Item.size x by omega]
      exact ih _ _ _ _

variable {u u' : Neu Char} {v v' : Neu UInt8} {c : Cond Char β} {e : Cond UInt8 β'} {d : List Char} {o : Nat}

theorem peek_sim {rest : List Char} (hr : dropB d o = some rest) :
    peek (utf8 d) o = .ok (indices 0 (utf8 rest)) ∧ peek d o = .ok (indices 0 rest) :=
  ⟨peek_ok.mpr ⟨_, dropB_bytes hr, rfl⟩, peek_ok.mpr ⟨_, hr, rfl⟩⟩

theorem remK_sim (k : Nat → Option (Res Span)) : remK (utf8 d) o k = remK d o k := by
  unfold remK; rw [blen_utf8]

theorem once_sim (hu : UnitSim false u v) (hc : CondSim rv c e)
    (hm : ∀ p q, c = .regex p → e = .regex q → PatSim rv p q → ∀ d, mt' (utf8 d) q 0 = mt d p 0) (ho : Valid d o) :
    onceParse mt' (utf8 d) v e o = onceParse mt d u c o := by
  obtain ⟨rest, hr⟩ := valid_iff_dropB.mp ho
  unfold onceParse
  rw [(peek_sim hr).1, (peek_sim hr).2]
  simp only [caseO]
  rw [remK_sim]
  congr 1; funext rem
  cases rest with
  | nil => rfl
  | cons x rest =>
    have ux : utf8 (x :: rest) = utf8 [x] ++ utf8 rest := utf8_append [x] rest
    rcases test_sim hu hc hm (i := 0) ho x with ⟨hx, h1, h2⟩ | ⟨h1, b, t, h2, h3⟩
    · rw [ux, h1]
      simp only [List.singleton_append, indices, h2]
      rw [show Item.size (asciiByte x) = Item.size x from (size_ascii hx).symm, heads]
    · rw [ux, h2]
      simp only [List.cons_append, indices, h1, h3]
      rfl

theorem optU_sim (hu : UnitSim false u v) (hc : CondSim rv c e)
    (hm : ∀ p q, c = .regex p → e = .regex q → PatSim rv p q → ∀ d, mt' (utf8 d) q 0 = mt d p 0) (ho : Valid d o) :
    optUParse mt' (utf8 d) v e o = optUParse mt d u c o := by
  obtain ⟨rest, hr⟩ := valid_iff_dropB.mp ho
  unfold optUParse
  rw [(peek_sim hr).1, (peek_sim hr).2]
  simp only [caseO]
  rw [remK_sim]
  congr 1; funext rem
  cases rest with
  | nil => rfl
  | cons x rest =>
    have ux : utf8 (x :: rest) = utf8 [x] ++ utf8 rest := utf8_append [x] rest
    rcases test_sim hu hc hm (i := 0) ho x with ⟨hx, h1, h2⟩ | ⟨h1, b, t, h2, h3⟩
    · rw [ux, h1]
      simp only [List.singleton_append, indices, h2]
      rw [show Item.size (asciiByte x) = Item.size x from (size_ascii hx).symm, heads]
    · rw [ux, h2]
      simp only [List.cons_append, indices, h1, h3]
      rfl

theorem caseO_scan {r' : Option (Out (Scan UInt8))} {r : Option (Out (Scan Char))} (h : ScanSim r' r)
    {k' : Scan UInt8 → Option (Res Span)} {k : Scan Char → Option (Res Span)} {f : Error → Option (Res Span)}
    (hk : ∀ s' s, s'.cnt = s.cnt ∧ s'.beg = s.beg ∧ s'.stop = s.stop ∧
      (s.stop = none → s'.rest.head?.map (·.1) = s.rest.head?.map (·.1)) → k' s' = k s) :
    caseO r' k' f = caseO r k f := by
  match r', r, h with
  | none, none, _ => rfl
  | some .panic, some .panic, _ => rfl
  | some (.err e), some (.err _), h => cases h; rfl
  | some (.ok s'), some (.ok s), h => exact hk s' s h

theorem many0_sim (hu : UnitSim false u v) (hc : CondSim rv c e)
    (hm : ∀ p q, c = .regex p → e = .regex q → PatSim rv p q → ∀ d, mt' (utf8 d) q 0 = mt d p 0) (ho : Valid d o) :
    many0Parse mt' (utf8 d) v e o = many0Parse mt d u c o := by
  obtain ⟨rest, hr⟩ := valid_iff_dropB.mp ho
  unfold many0Parse
  rw [(peek_sim hr).1, (peek_sim hr).2, remK_sim]
  congr 1; funext rem
  exact caseO_scan (scan_sim hu hc hm _ 0 0 none rest hr) fun s' s h => by rw [h.2.1, h.2.2.1]

theorem many0_wide (hu : UnitSim true u v) (ho : Valid d o) :
    many0Parse mt' (utf8 d) v .empty o = many0Parse mt d u .empty o := by
  obtain ⟨rest, hr⟩ := valid_iff_dropB.mp ho
  unfold many0Parse
  rw [(peek_sim hr).1, (peek_sim hr).2, remK_sim]
  congr 1; funext rem
  obtain ⟨s, s', h1, h2, h3, h4⟩ := scan_wide (mt := mt) (mt' := mt') hu d (utf8 d) o 0 0 0 none rest
  simp only [caseO]
  rw [h1, h2]
  simp only [h3, h4]

theorem many1_sim (hu : UnitSim false u v) (hc : CondSim rv c e)
    (hm : ∀ p q, c = .regex p → e = .regex q → PatSim rv p q → ∀ d, mt' (utf8 d) q 0 = mt d p 0) (ho : Valid d o) :
    many1Parse mt' (utf8 d) v e o = many1Parse mt d u c o := by
  obtain ⟨rest, hr⟩ := valid_iff_dropB.mp ho
  unfold many1Parse
  rw [(peek_sim hr).1, (peek_sim hr).2]
  simp only [caseO]
  rw [remK_sim]
  congr 1; funext rem
  exact caseO_scan (scan_sim hu hc hm _ 0 0 none rest hr) fun s' s h => by rw [h.2.1, h.2.2.1]

theorem many1_wide (hu : UnitSim true u v) (ho : Valid d o) :
    many1Parse mt' (utf8 d) v .empty o = many1Parse mt d u .empty o := by
  obtain ⟨rest, hr⟩ := valid_iff_dropB.mp ho
  unfold many1Parse
  rw [(peek_sim hr).1, (peek_sim hr).2]
  simp only [caseO]
  rw [remK_sim]
  congr 1; funext rem
  obtain ⟨s, s', h1, h2, h3, h4⟩ := scan_wide (mt := mt) (mt' := mt') hu d (utf8 d) o 0 0 0 none rest
  rw [h1, h2]
  simp only [h3, h4]

theorem stop_or {s' : Scan UInt8} {s : Scan Char} (h : s'.cnt = s.cnt ∧ s'.beg = s.beg ∧ s'.stop = s.stop ∧
      (s.stop = none → s'.rest.head?.map (·.1) = s.rest.head?.map (·.1))) :
    s'.stop.or (s'.rest.head?.map (·.1)) = s.stop.or (s.rest.head?.map (·.1)) := by
  rw [h.2.2.1]
  cases hs : s.stop with
  | none => exact h.2.2.2 hs
  | some i => rfl

theorem between_sim (m n : Nat) (hu : UnitSim false u v) (hc : CondSim rv c e)
    (hm : ∀ p q, c = .regex p → e = .regex q → PatSim rv p q → ∀ d, mt' (utf8 d) q 0 = mt d p 0) (ho : Valid d o) :
    betweenParse mt' (utf8 d) m n v e o = betweenParse mt d m n u c o := by
  obtain ⟨rest, hr⟩ := valid_iff_dropB.mp ho
  unfold betweenParse
  rw [(peek_sim hr).1, (peek_sim hr).2]
  simp only [caseO]
  rw [remK_sim]
  congr 1; funext rem
  rw [hu.len]
  split
  · exact caseO_scan (scan_sim hu hc hm _ 0 0 none rest hr) fun s' s h => by rw [stop_or h, h.1, h.2.1]
  · rfl

theorem times_sim (r : CRange) (hu : UnitSim false u v) (hc : CondSim rv c e)
    (hm : ∀ p q, c = .regex p → e = .regex q → PatSim rv p q → ∀ d, mt' (utf8 d) q 0 = mt d p 0) (ho : Valid d o) :
    timesParse mt' (utf8 d) r v e o = timesParse mt d r u c o := by
  obtain ⟨rest, hr⟩ := valid_iff_dropB.mp ho
  unfold timesParse
  rw [(peek_sim hr).1, (peek_sim hr).2]
  simp only [caseO]
  rw [remK_sim]
  congr 1; funext rem
  rw [hu.len]
  split
  · exact caseO_scan (scan_sim hu hc hm _ 0 0 none rest hr) fun s' s h => by rw [stop_or h, h.1, h.2.1]
  · rfl

theorem thenU_sim (hu : UnitSim false u v) (hu' : UnitSim false u' v') (hc : CondSim rv c e)
    (hm : ∀ p q, c = .regex p → e = .regex q → PatSim rv p q → ∀ d, mt' (utf8 d) q 0 = mt d p 0) (ho : Valid d o) :
    thenUParse mt' (utf8 d) v v' e o = thenUParse mt d u u' c o := by
  obtain ⟨rest, hr⟩ := valid_iff_dropB.mp ho
  unfold thenUParse
  rw [(peek_sim hr).1, (peek_sim hr).2]
  simp only [caseO]
  rw [remK_sim]
  congr 1; funext rem
  rw [hu.len, hu'.len]
  split
  · cases rest with
    | nil => rfl
    | cons x rest =>
      have ux : utf8 (x :: rest) = utf8 [x] ++ utf8 rest := utf8_append [x] rest
      rcases test_sim hu hc hm (i := 0) ho x with ⟨hx, h1, h2⟩ | ⟨h1, b, t, h2, h3⟩
      · have hs : Item.size (asciiByte x) = Item.size x := (size_ascii hx).symm
        have hr1 : dropB d (o + (0 + Item.size x)) = some rest := by
          rw [Nat.zero_add]
          have := dropB_add (k := Item.size x) hr
          rw [this]
          have := dropB_append [x] rest
          simpa [blen] using this
        rw [ux, h1]
        cases rest with
        | nil => rfl
        | cons y rest =>
          have uy : utf8 (y :: rest) = utf8 [y] ++ utf8 rest := utf8_append [y] rest
          have hv1 : Valid d (o + (0 + Item.size x)) := valid_iff_dropB.mpr ⟨_, hr1⟩
          rcases test_sim hu' hc hm hv1 y with ⟨hy, h3, h4⟩ | ⟨h3, b, t, h4, h5⟩
          · rw [uy, h3]
            simp only [List.singleton_append, indices, h2, hs, h4]
            rw [show Item.size (asciiByte y) = Item.size y from (size_ascii hy).symm, heads]
          · rw [uy, h4]
            simp only [List.singleton_append, List.cons_append, List.nil_append, indices, h2, hs, h3, h5]
            rfl
      · rw [ux, h2]
        simp only [List.cons_append, indices]
        generalize t ++ utf8 rest = tl
        cases tl <;> cases rest <;> simp only [indices, h1, h3] <;> rfl
  · rfl

theorem lit_sim (l : List Char) (ho : Valid d o) : litParse (utf8 d) (utf8 l) o = litParse d l o := by
  obtain ⟨rest, hr⟩ := valid_iff_dropB.mp ho
  unfold litParse
  rw [remK_sim, blen_utf8, origAt_ok.mpr hr, origAt_ok.mpr (dropB_bytes hr)]
  have : (utf8 l).isPrefixOf (utf8 rest) = l.isPrefixOf rest := by
    rw [Bool.eq_iff_iff, List.isPrefixOf_iff_prefix, List.isPrefixOf_iff_prefix, utf8_prefix]
  simp only [caseO, this]

end Leaf

theorem caseR_sim {r' r : Option (Res Span)} {P : Res Span → Prop}
    {kOk' kOk : Span → Nat → Option (Res Span)} {kErr' kErr : Error → Nat → Option (Res Span)}
    (hr : r' = r) (hP : Sat r P) (hok : ∀ s o, P (.ok s o) → kOk' s o = kOk s o)
    (herr : ∀ e o, P (.err e o) → kErr' e o = kErr e o) : caseR r' kOk' kErr' = caseR r kOk kErr := by
  subst hr
  match r', hP with
  | none, _ => rfl
  | some (.ok s o), hP => exact hok s o (hP _ rfl)
  | some (.err e o), hP => exact herr e o (hP _ rfl)
  | some .panic, _ => rfl

theorem addK_sim {s t : Span} {f' f : Span → Option (Res Span)} (h : ∀ u, f' u = f u) :
    addK s t f' = addK s t f := by
  rw [funext h]

section Loops

variable {mt : Pat Char β → Nat → Option (Res Span)} {mt' : Pat UInt8 β' → Nat → Option (Res Span)}
  {V : Nat → Prop} {p s : Pat Char β} {q t : Pat UInt8 β'}

/-- On every good offset the two sides agree and the result is good again. -/
def SimAt (d : List Char) (mt : Pat Char β → Nat → Option (Res Span))
    (mt' : Pat UInt8 β' → Nat → Option (Res Span)) (p : Pat Char β) (q : Pat UInt8 β') : Prop :=
  ∀ o, Valid d o → mt' q o = mt p o ∧ Sat (mt p o) (OnBound d)

variable {d : List Char}

theorem choice_sim (e : Error) (beg : Nat) (hb : Valid d beg)
    {l : List (Pat Char β × Option (Val β))} {m : List (Pat UInt8 β' × Option (Val β'))}
    (h : AltSim rv l m) (hl : ∀ it ∈ l, ∀ q, PatSim rv it.1 q → SimAt d mt mt' it.1 q) (o : Nat) (ho : Valid d o) :
    choiceLoop mt' e beg m o = choiceLoop mt e beg l o := by
  induction l generalizing m o with
  | nil => cases h; rfl
  | cons it l ih =>
    cases h with
    | cons h1 _ h2 =>
      simp only [choiceLoop]
      obtain ⟨h3, h4⟩ := hl _ List.mem_cons_self _ h1 o ho
      exact caseR_sim h3 h4 (fun _ _ _ => rfl) (fun _ _ _ => ih h2 (fun x hx => hl x (by simp [hx])) beg hb)

theorem ltm_sim (e : Error) (beg : Nat) (hb : Valid d beg)
    {l : List (Pat Char β × Option (Val β))} {m : List (Pat UInt8 β' × Option (Val β'))}
    (h : AltSim rv l m) (hl : ∀ it ∈ l, ∀ q, PatSim rv it.1 q → SimAt d mt mt' it.1 q) (best : Option Span) (o : Nat) :
    ltmLoop mt' e beg m best o = ltmLoop mt e beg l best o := by
  induction l generalizing m o best with
  | nil => cases h; cases best <;> rfl
  | cons it l ih =>
    cases h with
    | cons h1 _ h2 =>
      simp only [ltmLoop]
      obtain ⟨h3, h4⟩ := hl _ List.mem_cons_self _ h1 beg hb
      exact caseR_sim h3 h4 (fun _ _ _ => ih h2 (fun x hx => hl x (by simp [hx])) _ _)
        (fun _ _ _ => ih h2 (fun x hx => hl x (by simp [hx])) _ _)

theorem rep_sim (more : Nat → Bool) (fin : Nat → Span → Nat → Option (Res Span)) (h : SimAt d mt mt' p q)
    (fuel cnt : Nat) (tot : Span) (o : Nat) (ho : Valid d o) :
    repLoop mt' q more fin fuel cnt tot o = repLoop mt p more fin fuel cnt tot o := by
  induction fuel generalizing cnt tot o with
  | zero => rfl
  | succ n ih =>
    simp only [repLoop]
    split
    · exact caseR_sim (h o ho).1 (h o ho).2 (fun s o' hs => addK_sim fun _ => ih _ _ _ hs.2.2) (fun _ _ _ => rfl)
    · rfl

theorem sep_sim (skip : Bool) (more : Nat → Bool) (fin : Nat → Span → Nat → Option (Res Span)) (h : SimAt d mt mt' p q)
    (h2 : SimAt d mt mt' s t) (fuel cnt : Nat) (tot : Span) (o : Nat) (ho : Valid d o) :
    sepLoop mt' q t skip more fin fuel cnt tot o = sepLoop mt p s skip more fin fuel cnt tot o := by
  induction fuel generalizing cnt tot o with
  | zero => rfl
  | succ n ih =>
    simp only [sepLoop]
    split
    · exact caseR_sim (h o ho).1 (h o ho).2 (fun s o' hs => caseR_sim (h2 o' hs.2.2).1 (h2 o' hs.2.2).2
        (fun s' o2 hs' => addK_sim fun _ => addK_sim fun _ => ih _ _ _ hs'.2.2) (fun _ _ _ => rfl)) (fun _ _ _ => rfl)
    · rfl

end Loops

theorem step_sim {G : Rules Char β} {G' : Rules UInt8 β'} (hG : RulesSim rv G G') (fuel : Nat)
    {mt : List Char → Pat Char β → Nat → Option (Res Span)} {mt' : List UInt8 → Pat UInt8 β' → Nat → Option (Res Span)}
    {pr : Pat Char β → Nat → Option (Res Span)} {pr' : Pat UInt8 β' → Nat → Option (Res Span)}
    {p : Pat Char β} {q : Pat UInt8 β'} (h : PatSim rv p q) (d : List Char) (o : Nat) (ho : Valid d o)
    (I : ∀ a b, Child G a p → PatSim rv a b → ∀ d, SimAt d (mt d) (mt' (utf8 d)) a b)
    (hpr : ∀ a b, Child G a p → PatSim rv a b → ∀ o, Valid d o → pr' b o = pr a o) :
    step G' fuel mt' pr' (utf8 d) q o = step G fuel mt pr d p o := by
  have v0 : ∀ d : List Char, Valid d 0 := fun d => ⟨[], d, rfl, rfl⟩
  cases h with
  | empty => rfl
  | fail => rfl
  | start => rfl
  | anchorEnd => simp only [step, blen_utf8]
  | consume n => simp only [step, consumeParse, remK_sim, blen_utf8]
  | consumeAll => simp only [step, blen_utf8]
  | lit l => exact lit_sim l ho
  | native h => simp only [step, h d o ho]
  | once hu hc => exact once_sim hu hc (fun a b h1 _ hab d => (I a b (by subst h1; exact rfl) hab d 0 (v0 d)).1) ho
  | many1 hu hc => exact many1_sim hu hc (fun a b h1 _ hab d => (I a b (by subst h1; exact rfl) hab d 0 (v0 d)).1) ho
  | many1Wide hu => exact many1_wide hu ho
  | optU hu hc => exact optU_sim hu hc (fun a b h1 _ hab d => (I a b (by subst h1; exact rfl) hab d 0 (v0 d)).1) ho
  | many0 hu hc => exact many0_sim hu hc (fun a b h1 _ hab d => (I a b (by subst h1; exact rfl) hab d 0 (v0 d)).1) ho
  | many0Wide hu => exact many0_wide hu ho
  | between m n hu hc =>
    exact between_sim m n hu hc (fun a b h1 _ hab d => (I a b (by subst h1; exact rfl) hab d 0 (v0 d)).1) ho
  | times r hu hc =>
    exact times_sim r hu hc (fun a b h1 _ hab d => (I a b (by subst h1; exact rfl) hab d 0 (v0 d)).1) ho
  | thenU hu hu' hc =>
    exact thenU_sim hu hu' hc (fun a b h1 _ hab d => (I a b (by subst h1; exact rfl) hab d 0 (v0 d)).1) ho
  | assert b h1 =>
    have A := I _ _ rfl h1 d o ho
    exact caseR_sim A.1 A.2 (fun _ _ _ => rfl) (fun _ _ _ => rfl)
  | thn h1 h2 | pre h1 h2 | suf h1 h2 =>
    have A := I _ _ (.inl rfl) h1 d
    have B := I _ _ (.inr rfl) h2 d
    exact caseR_sim (A o ho).1 (A o ho).2 (fun _ o1 hs => caseR_sim (B o1 hs.2.2).1 (B o1 hs.2.2).2
      (fun _ _ _ => rfl) (fun _ _ _ => rfl)) (fun _ _ _ => rfl)
  | ifThen h1 h2 h3 =>
    have A := I _ _ (.inl rfl) h1 d
    have B := I _ _ (.inr (.inl rfl)) h2 d
    have C := I _ _ (.inr (.inr rfl)) h3 d
    exact caseR_sim (A o ho).1 (A o ho).2 (fun _ o1 hs => caseR_sim (B o1 hs.2.2).1 (B o1 hs.2.2).2
      (fun _ o2 hs2 => addK_sim fun _ => caseR_sim (C o2 hs2.2.2).1 (C o2 hs2.2.2).2 (fun _ _ _ => rfl)
        (fun _ _ _ => rfl)) (fun _ _ _ => rfl)) (fun _ _ _ => rfl)
  | enclose h1 h2 h3 =>
    have A := I _ _ (.inl rfl) h1 d
    have B := I _ _ (.inr (.inl rfl)) h2 d
    have C := I _ _ (.inr (.inr rfl)) h3 d
    exact caseR_sim (A o ho).1 (A o ho).2 (fun _ o1 hs => caseR_sim (B o1 hs.2.2).1 (B o1 hs.2.2).2
      (fun _ o2 hs2 => addK_sim fun _ => caseR_sim (C o2 hs2.2.2).1 (C o2 hs2.2.2).2 (fun _ _ _ => rfl)
        (fun _ _ _ => rfl)) (fun _ _ _ => rfl)) (fun _ _ _ => rfl)
  | sepOnce h1 h2 h3 =>
    have A := I _ _ (.inl rfl) h1 d
    have B := I _ _ (.inr (.inl rfl)) h2 d
    have C := I _ _ (.inr (.inr rfl)) h3 d
    exact caseR_sim (A o ho).1 (A o ho).2 (fun _ o1 hs => addK_sim fun _ => caseR_sim (B o1 hs.2.2).1 (B o1 hs.2.2).2
      (fun _ o2 hs2 => addK_sim fun _ => caseR_sim (C o2 hs2.2.2).1 (C o2 hs2.2.2).2 (fun _ _ _ => rfl)
        (fun _ _ _ => rfl)) (fun _ _ _ => rfl)) (fun _ _ _ => rfl)
  | or h1 h2 =>
    have A := I _ _ (.inl rfl) h1 d
    have B := I _ _ (.inr rfl) h2 d
    exact caseR_sim (A o ho).1 (A o ho).2 (fun _ _ _ => rfl) (fun _ _ _ => caseR_sim (B o ho).1 (B o ho).2
      (fun _ _ _ => rfl) (fun _ _ _ => rfl))
  | longest h1 h2 =>
    have A := I _ _ (.inl rfl) h1 d
    have B := I _ _ (.inr rfl) h2 d
    exact caseR_sim (A o ho).1 (A o ho).2 (fun _ _ _ => caseR_sim (B o ho).1 (B o ho).2
      (fun _ _ _ => rfl) (fun _ _ _ => rfl)) (fun _ _ _ => caseR_sim (B o ho).1 (B o ho).2
      (fun _ _ _ => rfl) (fun _ _ _ => rfl))
  | opt h1 =>
    have A := I _ _ rfl h1 d o ho
    exact caseR_sim A.1 A.2 (fun _ _ _ => rfl) (fun _ _ _ => rfl)
  | choice e h1 => exact choice_sim e o ho h1 (fun it hit b hab => I _ _ ⟨it, hit, rfl⟩ hab d) o ho
  | ltm e h1 => exact ltm_sim e o ho h1 (fun it hit b hab => I _ _ ⟨it, hit, rfl⟩ hab d) none o
  | rep r h1 => exact rep_sim _ _ (I _ _ rfl h1 d) _ _ _ _ ho
  | rep2 m n h1 => exact rep_sim _ _ (I _ _ rfl h1 d) _ _ _ _ ho
  | collect m h1 => exact rep_sim _ _ (I _ _ rfl h1 d) _ _ _ _ ho
  | sep skip m h1 h2 => exact sep_sim _ _ _ (I _ _ (.inl rfl) h1 d) (I _ _ (.inr rfl) h2 d) _ _ _ _ ho
  | sep2 skip m n h1 h2 => exact sep_sim _ _ _ (I _ _ (.inl rfl) h1 d) (I _ _ (.inr rfl) h2 d) _ _ _ _ ho
  | sepCollect skip m h1 h2 => exact sep_sim _ _ _ (I _ _ (.inl rfl) h1 d) (I _ _ (.inr rfl) h2 d) _ _ _ _ ho
  | @branch f g a a' b b' hf h1 h2 =>
    simp only [step]
    rw [hf d o ho]
    cases g (utf8 d) o with
    | panic => rfl
    | err e => rfl
    | ok t =>
      cases t with
      | true =>
        have A := I _ _ (.inl rfl) h1 d o ho
        exact caseR_sim A.1 A.2 (fun _ _ _ => rfl) (fun _ _ _ => rfl)
      | false =>
        have A := I _ _ (.inr rfl) h2 d o ho
        exact caseR_sim A.1 A.2 (fun _ _ _ => rfl) (fun _ _ _ => rfl)
  | map h1 _ => exact (I _ _ rfl h1 d o ho).1
  | pat h1 => exact (I _ _ rfl h1 d o ho).1
  | @build q0 q1 f g h1 hf =>
    have A := I _ _ (.inl rfl) h1 d o ho
    refine caseR_sim A.1 A.2 (fun s o1 hs => ?_) (fun _ _ _ => rfl)
    have hb := hf d o1 s hs.2.2
    generalize hx : f d o1 s = x at hb
    generalize g (utf8 d) o1 s = y at hb
    cases hb with
    | ok hv hpq =>
      have B := I _ _ (.inr ⟨_, _, _, _, hx⟩) hpq d _ hv
      exact caseR_sim B.1 B.2 (fun _ _ _ => rfl) (fun _ _ _ => rfl)
    | err e hv => rfl
    | panic => rfl
  | dthen _ _ => rfl
  | cell i =>
    simp only [step]
    have hi := hG i
    cases hg : G i with
    | none =>
      rw [hg] at hi
      cases hg' : G' i with
      | none => rfl
      | some b => rw [hg'] at hi; exact hi.elim
    | some a =>
      rw [hg] at hi
      cases hg' : G' i with
      | none => rw [hg'] at hi; exact hi.elim
      | some b => rw [hg'] at hi; exact hpr a b hg hi o ho

theorem parse_sim {G : Rules Char β} {G' : Rules UInt8 β'} (hG : RulesSim rv G G') (n : Nat)
    (pol : Option (Pat Char β)) (pol' : Option (Pat UInt8 β')) (hpol : PolSim rv pol pol') (hb : BoundPol G pol)
    {p : Pat Char β} {q : Pat UInt8 β'} (h : PatSim rv p q) (hp : All G (Bounded G pol) p) (d : List Char) (o : Nat)
    (ho : Valid d o) : parse G' n pol' (utf8 d) q o = parse G n pol d p o := by
  induction n generalizing pol pol' p q d o with
  | zero => rfl
  | succ n ih =>
    simp only [parse]
    refine step_sim hG n h d o ho (fun a b hc hab d o ho => ?_)
      (fun a b hc hab o ho => ih pol pol' hpol hb hab (hp.child hc) d o ho)
    have hb0 : BoundPol G (none : Option (Pat Char β)) := fun _ h => by cases h
    refine ⟨?_, bound_mat (fun w hw o ho => bound_inv G n none hb0 d w o ho (hb w hw))
      (fun o ho => bound_inv G n pol hb d a o ho (hp.child hc)) ho⟩
    match pol, pol', hpol with
    | none, none, hpol => exact ih none none hpol hb hab (hp.child hc) d o ho
    | some w, some w', hpol =>
      exact caseR_sim (ih none none trivial hb0 hpol (hb w rfl) d o ho)
        (bound_inv G n none hb0 d w o ho (hb w rfl))
        (fun _ o' hs => ih (some w) (some w') hpol hb hab (hp.child hc) d o' hs.2.2) (fun _ _ _ => rfl)

end Neure
