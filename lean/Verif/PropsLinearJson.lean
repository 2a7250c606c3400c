import Verif.LinearPart
import Verif.PropsLinear
import Verif.PropsJson
/-!
# C81: the JSON example is linear
-/

namespace Neure

set_option linter.unusedSectionVars false
set_option linter.unusedSimpArgs false

namespace JsonLinear

variable {ν : Type}

/-- What a round of a string's body begins with. -/
def inner (x : UInt8) : Bool := decide (x ≠ 34)

def ws : Plan UInt8 := .leaf (.star (.cls (Neu.pred isWs).isMatch))
def sign : Plan UInt8 := .leaf (.opt (.cls (Neu.or (.or .never (.item 43)) (.item 45)).isMatch))
def digit : Plan UInt8 := .leaf (.plus (.cls (Neu.range ⟨.incl 48, .incl 57⟩).isMatch))
def key : Plan UInt8 := .leaf (.plus (.cls jKeyUnit.isMatch))
def lit (l : List UInt8) : Plan UInt8 := .leaf (.lit l)
def num : Plan UInt8 := .call (.seq (.call (.seq sign digit)) (.call (.alt (.call (.call (.seq (lit [46]) digit))) (.leaf .eps))))
def body : Plan UInt8 := .call (.rep (.part 7 false inner) 0 none)

/-- `may` for building, nothing for matching. -/
def opt (k : Bool) (a : Plan UInt8) : Plan UInt8 := if k then .call (.may a) else .call a
/-- A primitive pattern: building it is one more call. -/
def prim (k : Bool) (a : Plan UInt8) : Plan UInt8 := if k then .call (.may a) else a

def str (k : Bool) : Plan UInt8 := opt k (.call (.seq (lit [34]) (.seq (opt k body) (lit [34]))))
def word (k : Bool) (l : List UInt8) : Plan UInt8 := opt k (prim k (lit l))
def core (k : Bool) : Plan UInt8 :=
  .call (.alt (opt k (opt k num)) (.call (.alt (str k) (.call (.alt (word k [116, 114, 117, 101])
    (.call (.alt (word k [102, 97, 108, 115, 101]) (.call (.alt (word k [101, 109, 112, 116, 121]) (.nt k 0))))))))))
def ele (k : Bool) : Plan UInt8 := .call (.seq ws (.call (.seq (core k) ws)))
def member (k : Bool) : Plan UInt8 :=
  .call (.seq (.call (.seq ws (.call (.seq (.call (.seq (lit [34]) (.seq (prim k key) (lit [34])))) ws))))
    (.seq (lit [58]) (ele k)))
def list (k : Bool) (o c : UInt8) (a : Plan UInt8) : Plan UInt8 :=
  opt k (.call (.seq (lit [o]) (.seq (.call (.list a (lit [44]) true 1)) (lit [c]))))

/-- The calls of the grammar of `examples/json.rs`, matching and building. -/
def plans : Bool → Nat → Plan UInt8
  | k, 0 => .call (.alt (list k 123 125 (member k)) (list k 91 93 (ele k)))
  | _, _ => .fail

/-- The only part that is measured: a round of a string's body. -/
def Part (p : Pat UInt8 (JVal ν)) (k : Nat) (n : Bool) (f : UInt8 → Bool) : Prop :=
  p = escapeRound 34 92 jEscape ∧ k = 7 ∧ n = false ∧ f = inner

variable {cv : JConv ν}

theorem calls : CallsRules false Part (jsonRules cv) plans := by
  intro i
  match i with
  | 0 =>
    refine .inl ⟨_, rfl, ?_⟩
    have hn : Calls false Part (.pat (jNumText (ν := ν))) (.call num) :=
      .pat (.thn (.thn (.leaf trivial (.optU _)) (.leaf trivial (.many1 _)))
        (.or (.pat (.thn (.leaf trivial (.lit _)) (.leaf trivial (.many1 _)))) (.leaf trivial .empty)))
    have hs : Calls false Part (jStr cv) (str false) :=
      .map _ (.enclose (.leaf trivial (.lit _)) (.pat (.rep _ 0 none (.part (by nofun) ⟨rfl, rfl, rfl, rfl⟩)
        ⟨by simp, by simp [Bound.allowsFrom, Bound.allowsUpTo]⟩)) (.leaf trivial (.lit _)))
    have hw : ∀ l f, Calls (β := JVal ν) false Part (.map (.lit l) f) (word false l) := fun l f =>
      .map _ (.leaf trivial (.lit _))
    have he : Calls false Part (jEle cv) (ele false) :=
      .pre (.leaf trivial (.many0 _)) (.suf (.or (.map _ hn) (.or hs (.or (hw _ _) (.or (hw _ _) (.or (hw _ _) (.cell 0))))))
        (.leaf trivial (.many0 _)))
    have hm : Calls false Part (jMember cv) (member false) :=
      .sepOnce (.pre (.leaf trivial (.many0 _)) (.suf (.enclose (.leaf trivial (.lit _)) (.leaf trivial (.many1 _)) (.leaf trivial (.lit _)))
        (.leaf trivial (.many0 _)))) (.leaf trivial (.lit _)) he
    exact .or (.map _ (.enclose (.leaf trivial (.lit _)) (.sep _ _ hm (.leaf trivial (.lit _))) (.leaf trivial (.lit _))))
      (.map _ (.enclose (.leaf trivial (.lit _)) (.sep _ _ he (.leaf trivial (.lit _))) (.leaf trivial (.lit _))))
  | n + 1 => exact .inr ⟨rfl, rfl⟩

theorem builds : BuildsRules false Part (jsonRules cv) plans := by
  intro i
  match i with
  | 0 =>
    refine .inl ⟨_, rfl, ?_⟩
    have hn : Builds false Part (.pat (jNumText (ν := ν))) (.call (.may num)) :=
      .pat (.thn (.thn (.leaf trivial (.optU _)) (.leaf trivial (.many1 _)))
        (.or (.pat (.thn (.leaf trivial (.lit _)) (.leaf trivial (.many1 _)))) (.leaf trivial .empty)))
    have hs : Builds false Part (jStr cv) (str true) :=
      .map _ (.enclose (.leaf trivial (.lit _)) (.pat (.rep _ 0 none (.part (by nofun) ⟨rfl, rfl, rfl, rfl⟩)
        ⟨by simp, by simp [Bound.allowsFrom, Bound.allowsUpTo]⟩)) (.leaf trivial (.lit _)))
    have hw : ∀ l f, Builds (β := JVal ν) false Part (.map (.lit l) f) (word true l) := fun l f =>
      .map _ (.leaf trivial (.lit _))
    have he : Builds false Part (jEle cv) (ele true) :=
      .pre (.leaf trivial (.many0 _)) (.suf (.or (.map _ hn) (.or hs (.or (hw _ _) (.or (hw _ _) (.or (hw _ _) (.cell 0))))))
        (.leaf trivial (.many0 _)))
    have hm : Builds false Part (jMember cv) (member true) :=
      .sepOnce (.pre (.leaf trivial (.many0 _)) (.suf (.enclose (.leaf trivial (.lit _)) (.leaf trivial (.many1 _)) (.leaf trivial (.lit _)))
        (.leaf trivial (.many0 _)))) (.leaf trivial (.lit _)) he
    exact .or (.map _ (.enclose (.leaf trivial (.lit _)) (.sep _ _ hm (.leaf trivial (.lit _))) (.leaf trivial (.lit _))))
      (.map _ (.enclose (.leaf trivial (.lit _)) (.sep _ _ he (.leaf trivial (.lit _))) (.leaf trivial (.lit _))))
  | n + 1 => exact .inr ⟨rfl, rfl⟩

def N : Bool → Nat → Bool := fun _ _ => false
def T : Bool → Nat → UInt8 → Bool := fun _ _ x => x == 123 || x == 91
def O : Bool → Nat → Option UInt8 → Prop := fun _ _ h => ∃ x, h = some x ∧ (isWs x || x == 44 || x == 93 || x == 125) = true

theorem oneAhead : OneAhead (fun _ => false) plans N T O := by
  refine ⟨?_, ?_, ?_, ?_, ?_, ?_⟩
  · intro k i
    match i with
    | 0 => cases k <;> simp [plans, list, opt, lit, Plan.nullable, Peg.nullable, Peg.lit]
    | n + 1 => simp [plans, Plan.nullable]
  · intro k i x
    match i with
    | 0 => cases k <;> simp [plans, list, opt, lit, Plan.nullable, Plan.first, Peg.nullable, Peg.lit, Peg.begins, Peg.first, T] <;> grind
    | n + 1 => simp [plans, Plan.first]
  · intro k i
    match i with
    | 0 =>
      cases k <;> simp [plans, list, opt, prim, lit, ele, member, core, str, word, body, num, ws, sign, digit, key, Plan.Decided, Plan.nullable, Plan.first, Peg.nullable, Peg.lit, Peg.begins, Peg.first, Plan.Next, N, T, O, Peg.opt, Peg.plus, Neu.isMatch, isWs, inner, CRange.contains, Bound.allowsFrom, Bound.allowsUpTo, Item.key]
      all_goals refine ⟨⟨⟨?_, ?_⟩, ?_⟩, ⟨⟨?_, ?_⟩, ?_⟩⟩
      all_goals first
        | (rintro h (⟨x, rfl, hx⟩ | rfl | rfl) <;> simp [*])
        | (intro x; simp only [← UInt8.toNat_inj, UInt8.reduceToNat]; omega)
    | n + 1 => simp [plans, Plan.Decided]
  · intro k i
    match i with
    | 0 => cases k <;> simp [plans, list, opt, prim, lit, ele, member, core, str, word, body, num, ws, sign, digit, key, Plan.Clear]
    | n + 1 => simp [plans, Plan.Clear]
  · refine ⟨[plans false 0, plans true 0, .fail], fun k i => ?_⟩
    match k, i with
    | false, 0 | true, 0 => simp
    | _, n + 1 => simp [plans]
  · refine ⟨fun _ _ => 0, 0, fun k i => ⟨?_, Nat.le_refl _⟩⟩
    match i with
    | 0 => cases k <;> simp [plans, list, opt, prim, lit, ele, member, core, str, word, body, num, ws, sign, digit, key, Plan.leftBelow, Plan.nullable, Peg.nullable, Peg.lit]
    | n + 1 => simp [plans, Plan.leftBelow]

/-- A round of a string's body: at most seven calls and seven more per byte. -/
theorem round_metered (G : Rules UInt8 (JVal ν)) :
    Metered G none (fun _ => false) (escapeRound 34 92 jEscape) 7 false inner := by
  have hpair : Metered G none (fun _ => false) (escapePair 92 jEscape) 1 false (Neu.item 92).isMatch :=
    .thenU fun _ _ => rfl
  have cost : ∀ n d' (s : Unit × Nat), WP (workMat G n none d' (escapePair 92 jEscape)) (fun _ s' _ => s'.2 ≤ s.2 + 1) s 0 := by
    intro n d' s
    cases n with
    | zero => rintro _ _ _ ⟨⟩
    | succ n =>
      intro r s' o' hr
      have := spend_unit (w := 0) (mt := workMat (σ := Unit) G n none) G n (workParse G n none d') (p := escapePair 92 jEscape) (c := .empty) rfl
        (Nat.le_refl (blen d')) (fun _ q hq => absurd hq id) ((), s.2 + 1) 0 r s' o' hr
      simpa using this
  refine Metered.or (k := 3) ?_ ?_
  · refine fun m pre x j => (Metered.many1 (w := 2) ?_ (fun _ _ => rfl) m pre x j).mono fun r s o' h =>
      h.mono (by omega) (by omega) id (fun a ha => ?_)
    · intro n d' s
      cases n with
      | zero => rintro _ _ _ ⟨⟩
      | succ n =>
        have : WP (Imp.assert (workMat (σ := Unit) G n none d') (escapePair 92 jEscape) false) (fun _ s' _ => s'.2 ≤ s.2 + 2)
            ((), s.2 + 1) 0 := by
          dsimp +zetaHave only [Imp.assert]
          refine WP.bind_ (WP.offset_ (WP.bind_ ((cost n d' ((), s.2 + 1)).mono fun r s' o' h => ?_)))
          exact WP.bind_ (WP.setOffset_ (WP.pure_ (by simp only at h; omega)))
        exact this
    · have : ¬ 34 = a := by simpa [Neu.isMatch] using ha
      simp only [inner, ne_eq, decide_not, Bool.not_eq_true', decide_eq_false_iff_not]
      exact fun h => this h.symm
  · refine fun m pre x j => (hpair m pre x j).mono fun r s o' h => h.mono (by omega) (by omega) id (fun a ha => ?_)
    have : 92 = a := by simpa [Neu.isMatch] using ha
    subst this; rfl

theorem measured (G : Rules UInt8 (JVal ν)) (p : Pat UInt8 (JVal ν)) (k : Nat) (n : Bool) (f : UInt8 → Bool) (h : Part p k n f) :
    Measured G none (fun _ => false) p k n f := by
  obtain ⟨rfl, rfl, rfl, rfl⟩ := h
  exact (round_metered G).measured

end JsonLinear

/-- **C81 (JSON).** There are two numbers such that the parser of `examples/json.rs` returns on every
text, whatever converts its numbers, and makes at most `A` calls per byte and `B` more. -/
theorem C81_json : ∃ A B, ∀ (ν : Type) (cv : JConv ν) (d : List UInt8),
    ∃ r o' c, ConstructsWork (jsonRules cv) jsonH none d (.cell 0) () 0 r () o' c ∧ c ≤ A * d.length + B := by
  obtain ⟨A, B, hAB⟩ := Plan.takes_linear (e := .nt true 0) JsonLinear.oneAhead trivial (by simp [Plan.Decided])
  refine ⟨A, B, fun ν cv d => ?_⟩
  have bound : ∀ r o' c, ConstructsWork (jsonRules cv) jsonH none d (.cell 0) () 0 r () o' c → c ≤ A * d.length + B := by
    rintro r o' c ⟨n, hn⟩
    have := does_con (P := JsonLinear.plans) (H := jsonH) (JsonLinear.measured _) JsonLinear.calls JsonLinear.builds
      (pol := none) (w := false) ⟨rfl, rfl⟩ n (.cell 0) _ (.cell 0) [] d ((), 0) rfl r _ _ hn
    have hk : (d.countP fun _ => !false) = d.length := by rw [List.countP_eq_length]; simp
    rw [← hk]
    cases r with
    | ok a =>
      obtain ⟨t, y, k, h1, h2, h3, h4⟩ := this
      exact Nat.le_trans (by simpa using h4) (hAB _ _ _ h3)
    | error er =>
      obtain ⟨t, z, r, k, h1, h2, h3, _, h4⟩ := this
      exact Nat.le_trans (by simpa using h4) (hAB _ _ _ h3)
  rcases C49_returns cv d with ⟨v, o', h⟩ | ⟨e, o', h⟩
  · obtain ⟨c, hc⟩ := ((C78_counting_building _ _ _).1 _ _ _).mp h
    exact ⟨_, _, c, hc, bound _ _ _ hc⟩
  · obtain ⟨c, hc⟩ := ((C78_counting_building _ _ _).2 _ _ _).mp h
    exact ⟨_, _, c, hc, bound _ _ _ hc⟩

end Neure
