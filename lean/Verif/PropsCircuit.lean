import Verif.Circuit
import Verif.Lex
import Verif.PropsClass
/-!
# C75: the circuit example of `skip_ascii_whitespace`
-/

namespace Neure

set_option linter.unusedSectionVars false
set_option linter.unusedSimpArgs false

open Demo Lex

namespace Circuit

/-! ## Specification -/

/-- ASCII white space. -/
def Blank (w : List Char) : Prop := ∀ c ∈ w, c ∈ Chars.blanks
/-- A number. -/
def Number (t : List Char) : Prop := t ≠ [] ∧ ∀ c ∈ t, c ∈ Chars.digits
/-- The name of a wire. -/
def Name (t : List Char) : Prop := t ≠ [] ∧ ∀ c ∈ t, c ∈ Chars.lower

/-- `OpText n x a`: the text `x`, standing at position `n`, is the operand `a`. -/
inductive OpText : Nat → List Char → Op → Prop where
  | sig {n w t} : Blank w → Number t → OpText n (w ++ t) (.sig ⟨⟨n + blen w, blen t⟩, t⟩)
  | wire {n w t} : Blank w → Name t → OpText n (w ++ t) (.wire ⟨⟨n + blen w, blen t⟩, t⟩)

/-- `x` is the keyword `k`. -/
def KeyText (k : String) (x : List Char) : Prop := ∃ w, Blank w ∧ x = w ++ k.toList

/-- `SrcText n x i`: the text `x`, standing at position `n`, is the source `i` of an
instruction. -/
inductive SrcText : Nat → List Char → Inst → Prop where
  | store {n x d} : OpText n x (.sig d) → SrcText n x (.store (.sig d))
  | and {n x y z a b} : OpText n x a → KeyText "AND" y → OpText (n + blen x + blen y) z b →
      SrcText n (x ++ y ++ z) (.and a b)
  | or {n x y z a b} : OpText n x a → KeyText "OR" y → OpText (n + blen x + blen y) z b →
      SrcText n (x ++ y ++ z) (.or a b)
  | lshift {n x y z a b} : OpText n x a → KeyText "LSHIFT" y → OpText (n + blen x + blen y) z b →
      SrcText n (x ++ y ++ z) (.lshift a b)
  | rshift {n x y z a b} : OpText n x a → KeyText "RSHIFT" y → OpText (n + blen x + blen y) z b →
      SrcText n (x ++ y ++ z) (.rshift a b)
  | not {n y z a} : KeyText "NOT" y → OpText (n + blen y) z a → SrcText n (y ++ z) (.not a)

/-- One instruction: source, arrow, wire. -/
inductive LineText : Nat → List Char → Inst × Dat → Prop where
  | mk {n x y w t i} : SrcText n x i → KeyText "->" y → Blank w → Name t →
      LineText n (x ++ y ++ w ++ t) (i, ⟨⟨n + blen x + blen y + blen w, blen t⟩, t⟩)

/-- The name that ended just before `y` is as long as it could be. -/
def NameOver (y : List Char) : Prop := ∀ c z, y = c :: z → c ∉ Chars.lower

/-- `Program n x l y`: the text `x`, standing at position `n`, begins with the
instructions `l`, behind which `y` remains. -/
inductive Program : Nat → List Char → List (Inst × Dat) → List Char → Prop where
  | nil {n x} : Program n x [] x
  | cons {n t x i l y} : LineText n t i → NameOver x → Program (n + blen t) x l y → Program n (t ++ x) (i :: l) y

/-- No instruction begins here. -/
def NoLine (n : Nat) (y : List Char) : Prop := ¬ ∃ t z i, y = t ++ z ∧ LineText n t i ∧ NameOver z

/-- The value built for an instruction. -/
def valueOf (i : Inst × Dat) : Val CVal := .pair (.base (.inst i.1)) (.base (.dat i.2))

/-! ## Proof tools -/

/-- White space, digits, small letters, as the units test them. -/
def B : Char → Bool := (Unit.asciiWhitespace : Neu Char).isMatch
def P : Char → Bool := (Unit.digit 10).isMatch
def Q : Char → Bool := (Unit.asciiLowercase : Neu Char).isMatch

theorem B_iff (c : Char) : B c = true ↔ c ∈ Chars.blanks := (C59_ascii_classes.2.2.2.2.2.2.2.2.1).1 c
theorem Q_iff (c : Char) : Q c = true ↔ c ∈ Chars.lower := C59_ascii_classes.2.1.1 c
theorem P_iff (c : Char) : P c = true ↔ c ∈ Chars.digits := by
  rw [P, (C59_digit 10 (by decide) c).1, show Chars.ofRadix 10 = Chars.digits by decide +kernel]

theorem not_B {c : Char} (h : c ∉ Chars.blanks) : B c = false := by
  cases hb : B c with
  | false => rfl
  | true => exact absurd ((B_iff c).mp hb) h

theorem not_Q {c : Char} (h : c ∉ Chars.lower) : Q c = false := by
  cases hb : Q c with
  | false => rfl
  | true => exact absurd ((Q_iff c).mp hb) h

theorem not_P {c : Char} (h : c ∉ Chars.digits) : P c = false := by
  cases hb : P c with
  | false => rfl
  | true => exact absurd ((P_iff c).mp hb) h

theorem PB (c : Char) (h : P c = true) : B c = false := by
  refine not_B ?_
  have : ∀ c ∈ Chars.digits, c ∉ Chars.blanks := by decide
  exact this c ((P_iff c).mp h)

theorem QB (c : Char) (h : Q c = true) : B c = false := by
  refine not_B ?_
  have : ∀ c ∈ Chars.lower, c ∉ Chars.blanks := by decide
  exact this c ((Q_iff c).mp h)

theorem PQ (c : Char) (h : P c = true) : Q c = false := by
  refine not_Q ?_
  have : ∀ c ∈ Chars.digits, c ∉ Chars.lower := by decide
  exact this c ((P_iff c).mp h)

theorem QP (c : Char) (h : Q c = true) : P c = false := by
  refine not_P ?_
  have : ∀ c ∈ Chars.lower, c ∉ Chars.digits := by decide
  exact this c ((Q_iff c).mp h)

theorem BP (c : Char) (h : B c = true) : P c = false := by
  cases hp : P c with
  | false => rfl
  | true => rw [PB c hp] at h; cases h

theorem BQ (c : Char) (h : B c = true) : Q c = false := by
  cases hp : Q c with
  | false => rfl
  | true => rw [QB c hp] at h; cases h

theorem blank_iff {w : List Char} : Only B w ↔ Blank w :=
  ⟨fun h c hc => (B_iff c).mp (h c hc), fun h c hc => (B_iff c).mpr (h c hc)⟩

theorem nameOver_iff {y : List Char} : Past Q y ↔ NameOver y := by
  constructor
  · intro h c z e hc; have := h c z e; rw [(Q_iff c).mpr hc] at this; cases this
  · intro h c z e; exact not_Q (h c z e)

/-- Position of a text `t` with `y` behind it in the text `D`. -/
def datOf (D t y : List Char) : Dat := ⟨⟨blen D - (blen t + blen y), blen t⟩, t⟩

/-! ### The parser as a function -/

section
variable (D : List Char)

def opF (x : List Char) : Option (Op × List Char) :=
  match word B P x with
  | some (t, y) => some (.sig (datOf D t y), y)
  | none =>
    match word B Q x with
    | some (t, y) => some (.wire (datOf D t y), y)
    | none => none

def binF (k : String) (f : Op → Op → Inst) (x : List Char) : Option (Inst × List Char) :=
  match opF D x with
  | none => none
  | some (a, y) =>
    match key B k.toList y with
    | none => none
    | some z =>
      match opF D z with
      | none => none
      | some (b, u) => some (f a b, u)

def notF (x : List Char) : Option (Inst × List Char) :=
  match key B "NOT".toList x with
  | none => none
  | some z =>
    match opF D z with
    | none => none
    | some (b, u) => some (.not b, u)

def storeF (x : List Char) : Option (Inst × List Char) :=
  match word B P x with
  | some (t, y) => some (.store (.sig (datOf D t y)), y)
  | none => none

def srcF (x : List Char) : Option (Inst × List Char) :=
  (binF D "AND" .and x).or ((binF D "OR" .or x).or ((binF D "LSHIFT" .lshift x).or ((binF D "RSHIFT" .rshift x).or
    ((notF D x).or (storeF D x)))))

def lineF (x : List Char) : Option ((Inst × Dat) × List Char) :=
  match srcF D x with
  | none => none
  | some (i, y) =>
    match key B "->".toList y with
    | none => none
    | some z =>
      match word B Q z with
      | none => none
      | some (t, u) => some ((i, datOf D t u), u)

end

/-! ### The parser as a valued parsing expression -/

def W : Peg Char := .star (.cls B)

def mkOp' (f : Dat → Op) : Val CVal → Option (Val CVal)
  | .base (.dat d) => some (.base (.op (f d)))
  | _ => none
def mkBin' (f : Op → Op → Inst) : Val CVal → Option (Val CVal)
  | .pair (.base (.op a)) (.base (.op b)) => some (.base (.inst (f a b)))
  | _ => none
def mkUn' (f : Op → Inst) : Val CVal → Option (Val CVal)
  | .base (.op a) => some (.base (.inst (f a)))
  | _ => none

def sigE : VPeg Char CVal := .map (mkOp' .sig) (.text W (.plus (.cls P)))
def wireE : VPeg Char CVal := .text W (.plus (.cls Q))
def opE : VPeg Char CVal := .alt sigE (.map (mkOp' .wire) wireE)
def keyE (k : String) : Peg Char := .seq W (.lit k.toList)
def binE (k : String) (f : Op → Op → Inst) : VPeg Char CVal := .map (mkBin' f) (.pair opE (.after (keyE k) opE))
def srcE : VPeg Char CVal :=
  .alt (binE "AND" .and) (.alt (binE "OR" .or) (.alt (binE "LSHIFT" .lshift) (.alt (binE "RSHIFT" .rshift)
    (.alt (.map (mkUn' .not) (.after (keyE "NOT") opE)) (.map (mkUn' .store) sigE)))))
def lineE : VPeg Char CVal := .pair srcE (.after (keyE "->") wireE)
def parserE : VPeg Char CVal := .many lineE 1 none .eps

theorem delim_key (k : String) : (Reading.skipping (β := CVal) W).delim (.lit k.toList) (keyE k) :=
  ⟨_, .leaf trivial (.lit _), rfl⟩

theorem sig_as : AsVal (.skipping W) G0 sig sigE :=
  .map _ (fun v => by unfold mkOp; split <;> simp) (fun v w => by unfold mkOp mkOp'; split <;> simp)
    (.leaf trivial (by simp) ⟨trivial, .many1 _⟩)

theorem wire_as : AsVal (.skipping W) G0 wire wireE := .leaf trivial (by simp [wire]) ⟨trivial, .many1 _⟩

theorem op_as : AsVal (.skipping W) G0 op opE :=
  .or sig_as (.map _ (fun v => by unfold mkOp; split <;> simp) (fun v w => by unfold mkOp mkOp'; split <;> simp) wire_as)

theorem bin_as (k : String) (f) : AsVal (.skipping W) G0 (bin k f) (binE k f) :=
  .map _ (fun v => by unfold mkBin; split <;> simp) (fun v w => by unfold mkBin mkBin'; split <;> simp)
    (.sepOnce op_as (delim_key k) op_as)

theorem src_as : AsVal (.skipping W) G0 src srcE :=
  .or (bin_as _ _) (.or (bin_as _ _) (.or (bin_as _ _) (.or (bin_as _ _) (.or
    (.map _ (fun v => by unfold mkUn; split <;> simp) (fun v w => by unfold mkUn mkUn'; split <;> simp)
      (.pre (delim_key _) op_as))
    (.map _ (fun v => by unfold mkUn; split <;> simp) (fun v w => by unfold mkUn mkUn'; split <;> simp) sig_as)))))

theorem parser_as : AsVal (.skipping W) G0 parser parserE :=
  .collect 1 (.sepOnce src_as (delim_key _) wire_as) (.guarded trivial)

theorem datH_handles (d : List Char) : Handles datH d (fun t y => .dat (datOf d t y)) := by
  intro pre t y o st hd
  have h1 : origSub d (blen pre) (blen t) = .ok t := origSub_ok.mpr ⟨pre, y, hd, rfl, rfl⟩
  have h2 : blen d - (blen t + blen y) = blen pre := by rw [hd]; simp only [blen_append]; omega
  simp [datH, h1, datOf, h2]

section
variable {R : Nat → Peg Char} {V : Nat → VPeg Char CVal} (D : List Char)

/-- The handler's values. -/
def gD : List Char → List Char → CVal := fun t y => .dat (datOf D t y)

theorem yields_sig (x : List Char) : Yields R V (gD D) sigE x
    ((word B P x).map fun q => (.base (.op (.sig (datOf D q.1 q.2))), q.2)) := by
  have h := yields_word (R := R) (V := V) (g := gD D) B P x
  cases e : word B P x with
  | none => rw [e] at h; exact .map_fail h
  | some q => rw [e] at h; exact .map_ok h rfl

theorem yields_wire (x : List Char) : Yields R V (gD D) wireE x
    ((word B Q x).map fun q => (.base (.dat (datOf D q.1 q.2)), q.2)) :=
  yields_word (R := R) (V := V) (g := gD D) B Q x

theorem yields_op (x : List Char) : Yields R V (gD D) opE x ((opF D x).map fun q => (.base (.op q.1), q.2)) := by
  have h := yields_sig (R := R) (V := V) D x
  have h' := yields_wire (R := R) (V := V) D x
  unfold opF
  cases e : word B P x with
  | some q => rw [e] at h; exact .alt_1 h
  | none =>
    rw [e] at h
    refine .alt_2 h ?_
    cases e' : word B Q x with
    | none => rw [e'] at h'; exact .map_fail h'
    | some q => rw [e'] at h'; exact .map_ok h' rfl

theorem yields_bin (k : String) (f) (x : List Char) : Yields R V (gD D) (binE k f) x
    ((binF D k f x).map fun q => (.base (.inst q.1), q.2)) := by
  have h := yields_op (R := R) (V := V) D x
  unfold binF
  cases e : opF D x with
  | none => rw [e] at h; exact .map_fail (.pair_no1 h)
  | some q =>
    rw [e] at h
    have h2 := ford_key (R := R) B k.toList q.2
    simp only
    cases e2 : key B k.toList q.2 with
    | none => rw [e2] at h2; exact .map_fail (.pair_no2 h (.after_no h2))
    | some z =>
      rw [e2] at h2
      have h3 := yields_op (R := R) (V := V) D z
      simp only
      cases e3 : opF D z with
      | none => rw [e3] at h3; exact .map_fail (.pair_no2 h (.after_ok h2 h3))
      | some u => rw [e3] at h3; exact .map_ok (.pair_ok h (.after_ok h2 h3)) rfl

theorem yields_not (x : List Char) : Yields R V (gD D) (.map (mkUn' .not) (.after (keyE "NOT") opE)) x
    ((notF D x).map fun q => (.base (.inst q.1), q.2)) := by
  have h := ford_key (R := R) B "NOT".toList x
  unfold notF
  cases e : key B "NOT".toList x with
  | none => rw [e] at h; exact .map_fail (.after_no h)
  | some z =>
    rw [e] at h
    have h3 := yields_op (R := R) (V := V) D z
    simp only
    cases e3 : opF D z with
    | none => rw [e3] at h3; exact .map_fail (.after_ok h h3)
    | some u => rw [e3] at h3; exact .map_ok (.after_ok h h3) rfl

theorem yields_store (x : List Char) : Yields R V (gD D) (.map (mkUn' .store) sigE) x
    ((storeF D x).map fun q => (.base (.inst q.1), q.2)) := by
  have h := yields_sig (R := R) (V := V) D x
  unfold storeF
  cases e : word B P x with
  | none => rw [e] at h; exact .map_fail h
  | some q => rw [e] at h; exact .map_ok h rfl

theorem yields_alt {A A' : VPeg Char CVal} {x : List Char} {f : Inst × List Char → Val CVal × List Char}
    {u u' : Option (Inst × List Char)} (h : Yields R V (gD D) A x (u.map f)) (h' : Yields R V (gD D) A' x (u'.map f)) :
    Yields R V (gD D) (.alt A A') x ((u.or u').map f) := by
  cases u with
  | none => exact .alt_2 h h'
  | some q => exact .alt_1 h

theorem yields_src (x : List Char) : Yields R V (gD D) srcE x ((srcF D x).map fun q => (.base (.inst q.1), q.2)) :=
  yields_alt D (yields_bin D _ _ x) (yields_alt D (yields_bin D _ _ x) (yields_alt D (yields_bin D _ _ x)
    (yields_alt D (yields_bin D _ _ x) (yields_alt D (yields_not D x) (yields_store D x)))))

theorem yields_line (x : List Char) : Yields R V (gD D) lineE x ((lineF D x).map fun q => (valueOf q.1, q.2)) := by
  have h := yields_src (R := R) (V := V) D x
  unfold lineF
  cases e : srcF D x with
  | none => rw [e] at h; exact .pair_no1 h
  | some q =>
    rw [e] at h
    have h2 := ford_key (R := R) B "->".toList q.2
    simp only
    cases e2 : key B "->".toList q.2 with
    | none => rw [e2] at h2; exact .pair_no2 h (.after_no h2)
    | some z =>
      rw [e2] at h2
      have h3 := yields_wire (R := R) (V := V) D z
      simp only
      cases e3 : word B Q z with
      | none => rw [e3] at h3; exact .pair_no2 h (.after_ok h2 h3)
      | some u => rw [e3] at h3; exact .pair_ok h (.after_ok h2 h3)

end

/-! ### The function and the text -/

section
variable {D pre : List Char}

theorem datOf_at {x w t y : List Char} (hD : D = pre ++ x) (hx : x = w ++ t ++ y) :
    datOf D t y = ⟨⟨blen pre + blen w, blen t⟩, t⟩ := by
  have : blen D - (blen t + blen y) = blen pre + blen w := by
    rw [hD, hx]; simp only [blen_append]; omega
  simp [datOf, this]

theorem sig_iff {x t y : List Char} :
    word B P x = some (t, y) ↔ ∃ w, Blank w ∧ x = w ++ t ++ y ∧ Number t ∧ Past P y := by
  rw [word_iff PB]
  simp only [Number, Only, blank_iff, P_iff]
  constructor
  · rintro ⟨w, h1, h2, h3, h4, h5⟩; exact ⟨w, blank_iff.mp h1, h2, ⟨h3, h4⟩, h5⟩
  · rintro ⟨w, h1, h2, ⟨h3, h4⟩, h5⟩; exact ⟨w, blank_iff.mpr h1, h2, h3, h4, h5⟩

theorem wire_iff {x t y : List Char} :
    word B Q x = some (t, y) ↔ ∃ w, Blank w ∧ x = w ++ t ++ y ∧ Name t ∧ NameOver y := by
  rw [word_iff QB]
  simp only [Name, Only, blank_iff, Q_iff, nameOver_iff]
  constructor
  · rintro ⟨w, h1, h2, h3, h4, h5⟩; exact ⟨w, blank_iff.mp h1, h2, ⟨h3, h4⟩, h5⟩
  · rintro ⟨w, h1, h2, ⟨h3, h4⟩, h5⟩; exact ⟨w, blank_iff.mpr h1, h2, h3, h4, h5⟩

/-- Neither a digit nor a small letter comes. -/
def Over (y : List Char) : Prop := Past P y ∧ Past Q y

theorem op_sound {x y : List Char} {a : Op} (hD : D = pre ++ x) (h : opF D x = some (a, y)) :
    ∃ t, x = t ++ y ∧ OpText (blen pre) t a := by
  unfold opF at h
  split at h
  · rename_i t z e
    cases h
    obtain ⟨w, hw, hx, hn, _⟩ := sig_iff.mp e
    rw [datOf_at hD hx]
    exact ⟨w ++ t, hx, .sig hw hn⟩
  · split at h
    · rename_i t z e
      cases h
      obtain ⟨w, hw, hx, hn, _⟩ := wire_iff.mp e
      rw [datOf_at hD hx]
      exact ⟨w ++ t, hx, .wire hw hn⟩
    · cases h

theorem op_complete {t y : List Char} {a : Op} (hD : D = pre ++ (t ++ y)) (h : OpText (blen pre) t a) (hy : Over y) :
    opF D (t ++ y) = some (a, y) := by
  unfold opF
  generalize hn : blen pre = n at h
  cases h with
  | @sig w t hw ht =>
    have e : word B P (w ++ t ++ y) = some (t, y) := sig_iff.mpr ⟨w, hw, rfl, ht, hy.1⟩
    rw [e]; simp only; rw [datOf_at hD rfl, hn]
  | @wire w t hw ht =>
    have e : word B Q (w ++ t ++ y) = some (t, y) := wire_iff.mpr ⟨w, hw, rfl, ht, nameOver_iff.mp hy.2⟩
    rw [word_word QB QP e, e]; simp only; rw [datOf_at hD rfl, hn]

theorem key_text {k : String} {a : Char} {l x y : List Char} (hk : k.toList = a :: l) (ha : B a = false) :
    key B k.toList x = some y ↔ ∃ t, x = t ++ y ∧ KeyText k t := by
  rw [hk, key_iff ha]
  simp only [KeyText, hk, blank_iff]
  constructor
  · rintro ⟨w, hw, rfl⟩; exact ⟨_, rfl, w, hw, rfl⟩
  · rintro ⟨_, rfl, w, hw, rfl⟩; exact ⟨w, hw, rfl⟩

theorem over_key {k : String} {a : Char} {l t y : List Char} (hk : k.toList = a :: l) (hp : P a = false) (hq : Q a = false)
    (h : KeyText k t) : Over (t ++ y) := by
  obtain ⟨w, hw, rfl⟩ := h
  rw [List.append_assoc, hk]
  exact ⟨ends_behind BP (blank_iff.mpr hw) (by intro c z h; cases h; exact hp),
    ends_behind BQ (blank_iff.mpr hw) (by intro c z h; cases h; exact hq)⟩

/-- A keyword of the language: begins with a capital letter or a dash. -/
structure Key (k : String) (a : Char) (l : List Char) : Prop where
  eq : k.toList = a :: l
  b : B a = false
  p : P a = false
  q : Q a = false

theorem kAnd : Key "AND" 'A' ['N', 'D'] := ⟨by decide, by decide, by decide, by decide⟩
theorem kOr : Key "OR" 'O' ['R'] := ⟨by decide, by decide, by decide, by decide⟩
theorem kL : Key "LSHIFT" 'L' ['S', 'H', 'I', 'F', 'T'] := ⟨by decide, by decide, by decide, by decide⟩
theorem kR : Key "RSHIFT" 'R' ['S', 'H', 'I', 'F', 'T'] := ⟨by decide, by decide, by decide, by decide⟩
theorem kNot : Key "NOT" 'N' ['O', 'T'] := ⟨by decide, by decide, by decide, by decide⟩
theorem kTo : Key "->" '-' ['>'] := ⟨by decide, by decide, by decide, by decide⟩

theorem key_ne {k k' : String} {a a' l l'} (h : Key k a l) (h' : Key k' a' l') (hne : a' ≠ a) {x y : List Char}
    (hk : key B k.toList x = some y) : key B k'.toList x = none := by
  rw [h.eq] at hk; rw [h'.eq]; exact key_other h.b hne hk

theorem bin_sound {k : String} {a : Char} {l : List Char} (hk : Key k a l) {f : Op → Op → Inst} {x y : List Char} {i}
    (hD : D = pre ++ x) (h : binF D k f x = some (i, y)) :
    ∃ t1 t2 t3 a b, x = t1 ++ t2 ++ t3 ++ y ∧ i = f a b ∧ OpText (blen pre) t1 a ∧ KeyText k t2 ∧
      OpText (blen pre + blen t1 + blen t2) t3 b := by
  unfold binF at h
  split at h
  · cases h
  · rename_i a y1 e1
    split at h
    · cases h
    · rename_i y2 e2
      split at h
      · cases h
      · rename_i b y3 e3
        cases h
        obtain ⟨t1, rfl, h1⟩ := op_sound hD e1
        obtain ⟨t2, rfl, h2⟩ := (key_text hk.eq hk.b).mp e2
        obtain ⟨t3, rfl, h3⟩ := op_sound (pre := pre ++ t1 ++ t2) (by rw [hD]; simp) e3
        refine ⟨t1, t2, t3, a, b, by simp, rfl, h1, h2, ?_⟩
        simpa only [blen_append] using h3

theorem src_sound {x y : List Char} {i : Inst} (hD : D = pre ++ x) (h : srcF D x = some (i, y)) :
    ∃ t, x = t ++ y ∧ SrcText (blen pre) t i := by
  unfold srcF at h
  simp only [Option.or_eq_some_iff] at h
  rcases h with h | ⟨_, h | ⟨_, h | ⟨_, h | ⟨_, h | ⟨_, h⟩⟩⟩⟩⟩
  · obtain ⟨t1, t2, t3, a, b, rfl, rfl, h1, h2, h3⟩ := bin_sound kAnd hD h; exact ⟨_, rfl, .and h1 h2 h3⟩
  · obtain ⟨t1, t2, t3, a, b, rfl, rfl, h1, h2, h3⟩ := bin_sound kOr hD h; exact ⟨_, rfl, .or h1 h2 h3⟩
  · obtain ⟨t1, t2, t3, a, b, rfl, rfl, h1, h2, h3⟩ := bin_sound kL hD h; exact ⟨_, rfl, .lshift h1 h2 h3⟩
  · obtain ⟨t1, t2, t3, a, b, rfl, rfl, h1, h2, h3⟩ := bin_sound kR hD h; exact ⟨_, rfl, .rshift h1 h2 h3⟩
  · unfold notF at h
    split at h
    · cases h
    · rename_i z e
      split at h
      · cases h
      · rename_i b u e'
        cases h
        obtain ⟨t2, rfl, h2⟩ := (key_text kNot.eq kNot.b).mp e
        obtain ⟨t3, rfl, h3⟩ := op_sound (pre := pre ++ t2) (by rw [hD]; simp) e'
        exact ⟨t2 ++ t3, by simp, .not h2 (by simpa only [blen_append] using h3)⟩
  · unfold storeF at h
    split at h
    · rename_i t z e
      cases h
      obtain ⟨w, hw, hx, hn, _⟩ := sig_iff.mp e
      rw [datOf_at hD hx]
      exact ⟨w ++ t, hx, .store (.sig hw hn)⟩
    · cases h

theorem bin_complete {k : String} {a : Char} {l : List Char} (hk : Key k a l) {f : Op → Op → Inst}
    {t1 t2 t3 y : List Char} {u v} (hD : D = pre ++ (t1 ++ t2 ++ t3 ++ y)) (h1 : OpText (blen pre) t1 u) (h2 : KeyText k t2)
    (h3 : OpText (blen pre + blen t1 + blen t2) t3 v) (hy : Over y) :
    binF D k f (t1 ++ t2 ++ t3 ++ y) = some (f u v, y) ∧
    ∀ k' a' l' f', Key k' a' l' → a' ≠ a → binF D k' f' (t1 ++ t2 ++ t3 ++ y) = none := by
  have e1 : opF D (t1 ++ t2 ++ t3 ++ y) = some (u, t2 ++ t3 ++ y) := by
    have := op_complete (D := D) (pre := pre) (y := t2 ++ (t3 ++ y)) (by simpa using hD) h1
      (over_key hk.eq hk.p hk.q h2)
    simpa using this
  have e2 : key B k.toList (t2 ++ t3 ++ y) = some (t3 ++ y) :=
    (key_text hk.eq hk.b).mpr ⟨t2, by simp, h2⟩
  have e3 : opF D (t3 ++ y) = some (v, y) :=
    op_complete (pre := pre ++ t1 ++ t2) (by rw [hD]; simp) (by simpa only [blen_append] using h3) hy
  refine ⟨by simp only [binF, e1, e2, e3], fun k' a' l' f' hk' hne => ?_⟩
  simp only [binF, e1, key_ne hk hk' hne e2]

theorem src_complete {t y : List Char} {i : Inst} (hD : D = pre ++ (t ++ y)) (h : SrcText (blen pre) t i)
    (hy : ∃ t' z, y = t' ++ z ∧ KeyText "->" t') : srcF D (t ++ y) = some (i, y) := by
  obtain ⟨t', z, rfl, hk⟩ := hy
  have ho : Over (t' ++ z) := over_key kTo.eq kTo.p kTo.q hk
  generalize hn : blen pre = n at h
  cases h with
  | and h1 h2 h3 =>
    subst hn
    obtain ⟨e, _⟩ := bin_complete kAnd (f := .and) hD h1 h2 h3 ho
    simp only [srcF, e, Option.some_or]
  | or h1 h2 h3 =>
    subst hn
    obtain ⟨e, ho⟩ := bin_complete kOr (f := .or) hD h1 h2 h3 ho
    simp only [srcF, e, ho _ _ _ _ kAnd (by decide), Option.some_or, Option.none_or]
  | lshift h1 h2 h3 =>
    subst hn
    obtain ⟨e, ho⟩ := bin_complete kL (f := .lshift) hD h1 h2 h3 ho
    simp only [srcF, e, ho _ _ _ _ kAnd (by decide), ho _ _ _ _ kOr (by decide), Option.some_or, Option.none_or]
  | rshift h1 h2 h3 =>
    subst hn
    obtain ⟨e, ho⟩ := bin_complete kR (f := .rshift) hD h1 h2 h3 ho
    simp only [srcF, e, ho _ _ _ _ kAnd (by decide), ho _ _ _ _ kOr (by decide), ho _ _ _ _ kL (by decide),
      Option.some_or, Option.none_or]
  | @not t2 t3 a h2 h3 =>
    subst hn
    have e : key B "NOT".toList (t2 ++ t3 ++ (t' ++ z)) = some (t3 ++ (t' ++ z)) :=
      (key_text kNot.eq kNot.b).mpr ⟨t2, by simp, h2⟩
    have e3 : opF D (t3 ++ (t' ++ z)) = some (a, t' ++ z) :=
      op_complete (pre := pre ++ t2) (by rw [hD]; simp) (by simpa only [blen_append] using h3) ho
    have e0 : opF D (t2 ++ t3 ++ (t' ++ z)) = none := by
      rw [kNot.eq] at e
      simp only [opF, word_key kNot.b kNot.p e, word_key kNot.b kNot.q e]
    simp only [srcF, binF, notF, e0, e, e3, Option.none_or, Option.some_or]
  | @store t d h =>
    have e1 : opF D (t ++ (t' ++ z)) = some (.sig d, t' ++ z) := op_complete hD (hn ▸ h) ho
    have e2 : key B "->".toList (t' ++ z) = some z := (key_text kTo.eq kTo.b).mpr ⟨t', rfl, hk⟩
    have e3 : word B P (t ++ (t' ++ z)) = some (d.dat, t' ++ z) ∧ d = datOf D d.dat (t' ++ z) := by
      unfold opF at e1
      split at e1
      · rename_i s u e; cases e1; exact ⟨e, rfl⟩
      · split at e1 <;> cases e1
    have e4 : key B "NOT".toList (t ++ (t' ++ z)) = none := by
      rw [kNot.eq]; exact key_word PB kNot.p e3.1
    have hs : storeF D (t ++ (t' ++ z)) = some (.store (.sig d), t' ++ z) := by
      simp only [storeF, e3.1]; rw [← e3.2]
    simp only [srcF, binF, notF, e1, hs, e4, key_ne kTo kAnd (by decide) e2, key_ne kTo kOr (by decide) e2,
      key_ne kTo kL (by decide) e2, key_ne kTo kR (by decide) e2, Option.none_or]

theorem line_iff {x y : List Char} {i : Inst × Dat} (hD : D = pre ++ x) :
    lineF D x = some (i, y) ↔ ∃ t, x = t ++ y ∧ LineText (blen pre) t i ∧ NameOver y := by
  constructor
  · intro h
    unfold lineF at h
    split at h
    · cases h
    · rename_i a y1 e1
      split at h
      · cases h
      · rename_i y2 e2
        split at h
        · cases h
        · rename_i t y3 e3
          cases h
          obtain ⟨t1, rfl, h1⟩ := src_sound hD e1
          obtain ⟨t2, rfl, h2⟩ := (key_text kTo.eq kTo.b).mp e2
          obtain ⟨w, hw, rfl, h3, h4⟩ := wire_iff.mp e3
          have : datOf D t y = ⟨⟨blen pre + blen t1 + blen t2 + blen w, blen t⟩, t⟩ := by
            have := datOf_at (D := D) (pre := pre ++ t1 ++ t2) (by rw [hD]; simp) (rfl : w ++ t ++ y = _)
            simpa only [blen_append] using this
          rw [this]
          exact ⟨t1 ++ t2 ++ w ++ t, by simp, .mk h1 h2 hw h3, h4⟩
  · rintro ⟨t, rfl, h, hy⟩
    generalize hn : blen pre = n at h
    cases h with
    | @mk t1 t2 w t i h1 h2 hw h3 =>
      subst hn
      have e1 : srcF D (t1 ++ t2 ++ w ++ t ++ y) = some (i, t2 ++ (w ++ t ++ y)) := by
        have := src_complete (D := D) (pre := pre) (t := t1) (y := t2 ++ (w ++ t ++ y)) (by rw [hD]; simp) h1
          ⟨_, _, rfl, h2⟩
        simpa using this
      have e2 : key B "->".toList (t2 ++ (w ++ t ++ y)) = some (w ++ t ++ y) :=
        (key_text kTo.eq kTo.b).mpr ⟨_, rfl, h2⟩
      have e3 : word B Q (w ++ t ++ y) = some (t, y) := wire_iff.mpr ⟨w, hw, rfl, h3, hy⟩
      have : datOf D t y = ⟨⟨blen pre + blen t1 + blen t2 + blen w, blen t⟩, t⟩ := by
        have := datOf_at (D := D) (pre := pre ++ t1 ++ t2) (by rw [hD]; simp) (rfl : w ++ t ++ y = _)
        simpa only [blen_append] using this
      simp only [lineF, e1, e2, e3, this]

end

theorem lineText_ne {n : Nat} {t : List Char} {i} (h : LineText n t i) : t ≠ [] := by
  cases h with
  | mk _ _ _ h => intro e; simp at e; exact h.1 e.2.2.2

section
variable {R : Nat → Peg Char} {V : Nat → VPeg Char CVal} {D : List Char}

theorem noLine_yields {pre x : List Char} (hD : D = pre ++ x) :
    NoLine (blen pre) x ↔ Yields R V (gD D) lineE x none := by
  have h := yields_line (R := R) (V := V) D x
  constructor
  · intro hn
    cases e : lineF D x with
    | none => rw [e] at h; exact h
    | some q => obtain ⟨t, hx, hl, hy⟩ := (line_iff hD).mp e; exact absurd ⟨t, q.2, q.1, hx, hl, hy⟩ hn
  · rintro hn ⟨t, z, i, hx, hl, hy⟩
    rw [(line_iff hD).mpr ⟨t, hx, hl, hy⟩] at h
    cases C63_yields_unique h hn

theorem program_suffix {n : Nat} {x y : List Char} {l} (h : Program n x l y) : ∃ t, x = t ++ y := by
  induction h with
  | nil => exact ⟨[], rfl⟩
  | @cons n t x i l y _ _ _ ih => obtain ⟨s, rfl⟩ := ih; exact ⟨t ++ s, by simp⟩

theorem program_yields {n : Nat} {x y : List Char} {l} (h : Program n x l y) :
    ∀ pre t, n = blen pre → D = pre ++ x → x = t ++ y → NoLine (blen pre + blen t) y →
      Yields R V (gD D) (.upto lineE none .eps) x (some (Val.list (l.map valueOf), y)) := by
  induction h with
  | @nil n x =>
    intro pre t _ hD ht hn
    have : t = [] := by simpa using ht
    subst this
    exact .upto_stop (by simp) ((noLine_yields hD).mp (by simpa using hn)) .eps
  | @cons n t1 x i l y hl hx hp ih =>
    intro pre t hn hD ht hno
    subst hn
    obtain ⟨s, rfl⟩ := program_suffix hp
    have : t = t1 ++ s := List.append_cancel_right (show t ++ y = t1 ++ s ++ y by rw [← ht]; simp)
    subst this
    have h := yields_line (R := R) (V := V) D (t1 ++ (s ++ y))
    rw [(line_iff hD).mpr ⟨t1, rfl, hl, hx⟩] at h
    exact .upto_more (by simp) h (ih (pre ++ t1) s (by simp) (by rw [hD]; simp) rfl
      (by simpa [Nat.add_assoc] using hno))

theorem program_exists (k : Nat) : ∀ pre x, x.length ≤ k → D = pre ++ x →
    ∃ l t y, x = t ++ y ∧ Program (blen pre) x l y ∧ NoLine (blen pre + blen t) y := by
  induction k with
  | zero =>
    intro pre x hk hD
    have : x = [] := List.length_eq_zero_iff.mp (by omega)
    subst this
    refine ⟨[], [], [], rfl, .nil, ?_⟩
    rintro ⟨t, z, i, h, hl, _⟩
    exact lineText_ne hl (List.append_eq_nil_iff.mp h.symm).1
  | succ k ih =>
    intro pre x hk hD
    by_cases hn : NoLine (blen pre) x
    · exact ⟨[], [], x, rfl, .nil, by simpa using hn⟩
    · obtain ⟨t, z, i, rfl, hl, hz⟩ := Classical.not_not.mp hn
      have : 0 < t.length := List.length_pos_iff.mpr (lineText_ne hl)
      obtain ⟨l, s, y, rfl, hp, hno⟩ := ih (pre ++ t) z (by simp at hk; omega) (by rw [hD]; simp)
      exact ⟨i :: l, t ++ s, y, by simp, .cons hl hz (by simpa using hp), by simpa [Nat.add_assoc] using hno⟩

end

end Circuit

/-! ## C75 -/

/-- **C75.** On every text, from every position, the parser of the example reads
instructions as long as there are any: it returns exactly the instructions
written there, in order, each operand and each wire with its text and its place,
with any ASCII white space in front of any word; it stops where no further
instruction begins; it fails exactly when not even one instruction begins at the
position; it never panics and always returns. -/
theorem C75_circuit (pre x : List Char) :
    (∀ v st o', Constructs G0 Circuit.datH (some Circuit.skipped) (pre ++ x) Circuit.parser () (blen pre) (.ok v st o') ↔
      ∃ l t y, l ≠ [] ∧ x = t ++ y ∧ Circuit.Program (blen pre) x l y ∧ Circuit.NoLine (blen pre + blen t) y ∧
        v = Val.list (l.map Circuit.valueOf) ∧ o' = blen pre + blen t) ∧
    ((∃ e st o', Constructs G0 Circuit.datH (some Circuit.skipped) (pre ++ x) Circuit.parser () (blen pre) (.err e st o')) ↔
      Circuit.NoLine (blen pre) x) ∧
    ¬ Constructs G0 Circuit.datH (some Circuit.skipped) (pre ++ x) Circuit.parser () (blen pre) .panic ∧
    ∃ res, Constructs G0 Circuit.datH (some Circuit.skipped) (pre ++ x) Circuit.parser () (blen pre) res := by
  have hskip := C62_skip_class (G0 : Rules Char Circuit.CVal) (fun _ => Peg.fail) Unit.asciiWhitespace
  obtain ⟨h1, h2, h3, h4⟩ := C63_values_skipping (G := G0) (q := Circuit.skipped) (W := Circuit.W) (R := fun _ => Peg.fail)
    (V := fun _ => .fail) hskip.1 hskip.2 (fun _ => .inr ⟨rfl, rfl⟩) (fun _ => .inr ⟨rfl, rfl⟩) pre x
    (Circuit.datH_handles _) Circuit.parser_as ()
  obtain ⟨l, t, y, hx, hp, hn⟩ := Circuit.program_exists (D := pre ++ x) x.length pre x (Nat.le_refl _) rfl
  have hy := Circuit.program_yields (R := fun _ => Peg.fail) (V := fun _ => .fail) (D := pre ++ x) hp pre t rfl rfl hx hn
  refine ⟨fun v st o' => ?_, ?_, h3, ?_⟩
  · rw [h1]
    constructor
    · rintro ⟨t', y', hx', h, _, rfl⟩
      cases h with
      | many_ok h hm =>
        have := C63_yields_unique hy h
        simp only [Option.some.injEq, Prod.mk.injEq] at this
        obtain ⟨e1, rfl⟩ := this
        have e2 := Attr.list_inj e1
        have ht : t' = t := List.append_cancel_right (hx'.symm.trans hx)
        subst ht
        refine ⟨l, t', y, ?_, hx, hp, hn, by rw [e1], rfl⟩
        rintro rfl
        rw [← e2] at hm
        simp at hm
    · rintro ⟨l, t, y, hl, hx, hp, hn, rfl, rfl⟩
      have hy := Circuit.program_yields (R := fun _ => Peg.fail) (V := fun _ => .fail) (D := pre ++ x) hp pre t rfl rfl hx hn
      refine ⟨t, y, hx, .many_ok hy ?_, rfl, rfl⟩
      have := List.length_pos_iff.mpr hl
      rw [List.length_map]; exact this
  · rw [h2]
    constructor
    · intro h
      cases h with
      | many_no h hm =>
        have := C63_yields_unique hy h
        simp only [Option.some.injEq, Prod.mk.injEq] at this
        have e2 := Attr.list_inj this.1
        rw [← e2] at hm
        have : l = [] := by
          cases l with
          | nil => rfl
          | cons a l => simp at hm
        subst this
        cases hp
        have : t = [] := by simpa using hx
        subst this
        simpa using hn
    · intro hno
      have := (Circuit.noLine_yields (R := fun _ => Peg.fail) (V := fun _ => .fail) (D := pre ++ x) rfl).mp hno
      exact .many_no (vs := []) (.upto_stop (by simp) this .eps) (by simp)
  · rw [h4]
    by_cases hl : l = []
    · refine ⟨none, .many_no hy ?_⟩; subst hl; simp
    · exact ⟨_, .many_ok hy (by rw [List.length_map]; exact List.length_pos_iff.mpr hl)⟩

/-- Non-vacuity: the example's text is a program, read to the end. -/
example : ∃ v, Constructs G0 Circuit.datH (some Circuit.skipped)
      "\n123 -> x\nx AND y -> d\nx LSHIFT 2->f\nNOT x -> h\n  ".toList Circuit.parser () 0 (.ok v () 47) ∧
    v = Val.list [
      .pair (.base (.inst (.store (.sig ⟨⟨1, 3⟩, "123".toList⟩)))) (.base (.dat ⟨⟨8, 1⟩, ['x']⟩)),
      .pair (.base (.inst (.and (.wire ⟨⟨10, 1⟩, ['x']⟩) (.wire ⟨⟨16, 1⟩, ['y']⟩)))) (.base (.dat ⟨⟨21, 1⟩, ['d']⟩)),
      .pair (.base (.inst (.lshift (.wire ⟨⟨23, 1⟩, ['x']⟩) (.sig ⟨⟨32, 1⟩, ['2']⟩)))) (.base (.dat ⟨⟨35, 1⟩, ['f']⟩)),
      .pair (.base (.inst (.not (.wire ⟨⟨41, 1⟩, ['x']⟩)))) (.base (.dat ⟨⟨46, 1⟩, ['h']⟩))] :=
  ⟨_, ⟨60, by decide +kernel⟩, rfl⟩

/-- Non-vacuity: an instruction in words, and a text without one. -/
example : Circuit.LineText 0 "x AND y -> d".toList
      (.and (.wire ⟨⟨0, 1⟩, ['x']⟩) (.wire ⟨⟨6, 1⟩, ['y']⟩), ⟨⟨11, 1⟩, ['d']⟩) ∧ Circuit.NoLine 0 [] := by
  have b0 : Circuit.Blank [] := by simp [Circuit.Blank]
  have b1 : Circuit.Blank [' '] := by simp [Circuit.Blank, Chars.blanks]
  refine ⟨?_, ?_⟩
  · have := Circuit.LineText.mk (n := 0) (w := [' ']) (t := ['d'])
      (Circuit.SrcText.and (.wire (w := []) (t := ['x']) b0 ⟨by decide, by decide⟩) ⟨[' '], b1, rfl⟩
        (.wire (w := [' ']) (t := ['y']) b1 ⟨by decide, by decide⟩)) ⟨[' '], b1, rfl⟩ b1
      ⟨by decide, by decide⟩
    exact this
  · rintro ⟨t, z, i, h, hl, _⟩
    exact Circuit.lineText_ne hl (List.append_eq_nil_iff.mp h.symm).1

end Neure
