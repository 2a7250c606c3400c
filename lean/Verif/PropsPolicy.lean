import Verif.PropsUnit
import Verif.FindLemmas
/-!
# C31, C32: skip policies (`ctx.skip_before(q)`, `src/ctx/policy.rs`)

`Runs G (some q) d p o r`: on the policy context with policy pattern `q`,
`try_mat(p)` from offset `o` has result `r`.
-/

namespace Neure

open Demo

set_option linter.unusedSectionVars false
set_option linter.unusedSimpArgs false

variable {ι β : Type} [Item ι] {G : Rules ι β} {d : List ι}

/-! ## C31 -/

/-- **C31.** On `ctx.skip_before(q)`, `try_mat(p)` first applies `q` (on the plain
context) from the current offset; if `q` fails, so does the whole match, with
`q`'s error and offset; otherwise `p` is parsed from where `q` stopped, and its
outcome — span included — is the outcome. -/
theorem C31_policy_runs_first (q p : Pat ι β) (o : Nat) (r : Res Span) :
    Runs G (some q) d p o r ↔
      (∃ sq o1, Runs G none d q o (.ok sq o1) ∧ Parses G (some q) d p o1 r) ∨
      (∃ e o1, Runs G none d q o (.err e o1) ∧ r = .err e o1) ∨
      (Runs G none d q o .panic ∧ r = .panic) := by
  simp only [runs_iff, parses_iff, matL_some]
  cases hq : matL G none d q o with
  | none => simp [caseR]
  | some v =>
    cases v with
    | ok a o1 =>
      simp only [caseR, Option.some.injEq, Res.ok.injEq, reduceCtorEq, false_and, exists_false, or_false]
      exact ⟨fun h => ⟨a, o1, ⟨rfl, rfl⟩, h⟩, fun ⟨_, _, ⟨h1, h2⟩, h⟩ => by rw [h2]; exact h⟩
    | err e o1 =>
      simp only [caseR, Option.some.injEq, Res.err.injEq, reduceCtorEq, false_and, exists_false, or_false,
        false_or]
      exact ⟨fun h => ⟨e, o1, ⟨rfl, rfl⟩, h.symm⟩, fun ⟨_, _, ⟨h1, h2⟩, h⟩ => by rw [h1, h2]; exact h.symm⟩
    | panic => simp [caseR, eq_comm]

/-- Conditions that do not run patterns. -/
def Cond.Simple : Cond ι β → Prop
  | .regex _ => False
  | _ => True

/-- The primitive patterns: everything that runs no other pattern. -/
def Primitive : Pat ι β → Prop
  | .empty | .fail | .start | .anchorEnd | .consume _ | .consumeAll | .lit _ | .native _ => True
  | .once _ c | .many1 _ c | .optU _ c | .many0 _ c | .between _ _ _ c | .times _ _ c
  | .thenU _ _ c => c.Simple
  | _ => False

theorem check_simple {mt mt' : List ι → Pat ι β → Nat → Option (Res Span)} {c : Cond ι β}
    (hc : c.Simple) (u : Neu ι) (o : Nat) : testItem mt d o u c = testItem mt' d o u c := by
  funext pr
  cases c with
  | empty => rfl
  | fn f => rfl
  | regex p => exact absurd hc id

theorem primitive_policy_free {p : Pat ι β} (hp : Primitive p) (pol pol' : Option (Pat ι β)) (o : Nat) :
    parseL G pol d p o = parseL G pol' d p o := by
  cases p
  case empty => simp only [parseL_empty]
  case fail => simp only [parseL_fail]
  case start => simp only [parseL_start]
  case anchorEnd => simp only [parseL_anchorEnd]
  case consume => simp only [parseL_consume]
  case consumeAll => simp only [parseL_consumeAll]
  case lit => simp only [parseL_lit]
  case native => simp only [parseL_native]
  case once u c =>
    simp only [parseL_once, onceParse, check_simple (mt := matL G pol) (mt' := matL G pol') hp u o]
  case many1 u c =>
    simp only [parseL_many1, many1Parse, check_simple (mt := matL G pol) (mt' := matL G pol') hp u o]
  case optU u c =>
    simp only [parseL_optU, optUParse, check_simple (mt := matL G pol) (mt' := matL G pol') hp u o]
  case many0 u c =>
    simp only [parseL_many0, many0Parse, check_simple (mt := matL G pol) (mt' := matL G pol') hp u o]
  case between m n u c =>
    simp only [parseL_between, betweenParse, check_simple (mt := matL G pol) (mt' := matL G pol') hp u o]
  case times r u c =>
    simp only [parseL_times, timesParse, check_simple (mt := matL G pol) (mt' := matL G pol') hp u o]
  case thenU u v c =>
    simp only [parseL_thenU, thenUParse, check_simple (mt := matL G pol) (mt' := matL G pol') hp u o,
      check_simple (mt := matL G pol) (mt' := matL G pol') hp v o]
  all_goals exact absurd hp id

/-- **C31, primitives.** For a primitive pattern, `try_mat(p)` on
`ctx.skip_before(q)` is: skip with `q`, then match `p` as on the plain context.
The span is `p`'s alone: what `q` skipped is not part of it. -/
theorem C31_primitive_span_excludes_skipped (q p : Pat ι β) (hp : Primitive p) (o : Nat) :
    (∀ s o', Runs G (some q) d p o (.ok s o') ↔
      ∃ sq o1, Runs G none d q o (.ok sq o1) ∧ Runs G none d p o1 (.ok s o')) ∧
    (∀ e o', Runs G (some q) d p o (.err e o') ↔
      Runs G none d q o (.err e o') ∨
      ∃ sq o1, Runs G none d q o (.ok sq o1) ∧ Runs G none d p o1 (.err e o')) := by
  have key : ∀ o r, Parses G (some q) d p o r ↔ Runs G none d p o r := by
    intro o r
    rw [parses_iff, runs_iff, matL_none, primitive_policy_free hp (some q) none]
  constructor
  · intro s o'
    rw [C31_policy_runs_first]
    simp only [key]
    constructor
    · rintro (h | ⟨_, _, _, h⟩ | ⟨_, h⟩)
      · exact h
      · cases h
      · cases h
    · exact .inl
  · intro e o'
    rw [C31_policy_runs_first]
    simp only [key]
    constructor
    · rintro (h | ⟨_, _, h, h'⟩ | ⟨_, h⟩)
      · exact .inr h
      · cases h'; exact .inl h
      · cases h
    · rintro (h | h)
      · exact .inr (.inl ⟨_, _, h, rfl⟩)
      · exact .inl h

/-- The whole-item version for the standard case: `skip_before(u.many0())` and a
literal.  From a boundary, the match succeeds iff after all leading accepted
items comes the literal; span and offset are those of the literal. -/
theorem C31_skip_many0_literal (u : Neu ι) (l : List ι) (pre skipped rest : List ι)
    (hs : ∀ x ∈ skipped, u.isMatch x = true) (hr : ∀ x b, rest = x :: b → u.isMatch x = false)
    (hd : d = pre ++ skipped ++ rest) :
    (∀ s o', Runs G (some (.many0 u .empty)) d (.lit l) (blen pre) (.ok s o') ↔
      l <+: rest ∧ s = ⟨blen pre + blen skipped, blen l⟩ ∧ o' = blen pre + blen skipped + blen l) := by
  intro s o'
  subst hd
  have hv : Valid (pre ++ skipped ++ rest) (blen pre) := ⟨pre, skipped ++ rest, by simp, rfl⟩
  have gr : GreedyRun (β := β) G none (pre ++ skipped ++ rest) (blen pre) u .empty anyCount skipped rest := by
    refine ⟨⟨pre, rfl, rfl⟩, fun a x b h => ⟨trivial, .inl ⟨hs x (by simp [h]), rfl⟩⟩, fun x b h _ => ?_⟩
    exact .inr ⟨hr x b h, rfl⟩
  have hq := ((C23_many0 (G := G) (pol := none) u (.empty : Cond ι β) (blen pre) hv).1
    ⟨blen pre, blen skipped⟩ (blen pre + blen skipped)).mpr ⟨skipped, rest, gr, rfl, rfl⟩
  have hq' : Runs G none (pre ++ skipped ++ rest) (.many0 u .empty) (blen pre)
      (.ok ⟨blen pre, blen skipped⟩ (blen pre + blen skipped)) := hq
  rw [(C31_primitive_span_excludes_skipped _ (.lit l) trivial _).1]
  have hdrop : dropB (pre ++ skipped ++ rest) (blen pre + blen skipped) = some rest := by
    have := dropB_append (pre ++ skipped) rest
    rwa [blen_append] at this
  have hlit : ∀ s o', Runs G none (pre ++ skipped ++ rest) (.lit l : Pat ι β) (blen pre + blen skipped) (.ok s o') ↔
      l <+: rest ∧ s = ⟨blen pre + blen skipped, blen l⟩ ∧ o' = blen pre + blen skipped + blen l := by
    intro s o'
    rw [runs_iff, matL_none, parseL_lit, litParse, remK_some]
    have hlen : blen (pre ++ skipped ++ rest) = blen pre + blen skipped + blen rest := by
      simp only [blen_append]
    have horig : origAt (pre ++ skipped ++ rest) (blen pre + blen skipped) = .ok rest := origAt_ok.mpr hdrop
    rw [hlen, horig, Nat.add_sub_cancel_left]
    simp only [caseO, newSpanInc, reduceCtorEq, and_false, or_false, false_or]
    constructor
    · rintro ⟨-, h⟩
      split at h
      · split at h
        · next hp =>
          simp only [Option.some.injEq, Res.ok.injEq] at h
          exact ⟨List.isPrefixOf_iff_prefix.mp hp, h.1.symm, h.2.symm⟩
        · cases h
      · cases h
    · rintro ⟨hp, rfl, rfl⟩
      refine ⟨by omega, ?_⟩
      have : blen l ≤ blen rest := by
        obtain ⟨t, rfl⟩ := hp; rw [blen_append]; omega
      rw [if_pos this, if_pos (List.isPrefixOf_iff_prefix.mpr hp)]
  constructor
  · rintro ⟨sq, o1, h1, h2⟩
    cases h1.unique hq'
    exact (hlit s o').mp h2
  · intro h
    exact ⟨_, _, hq', (hlit s o').mpr h⟩

/-- Concrete: two blanks skipped, span `2..3`. -/
example : Runs (β := Nat) G0 (some spaces) [' ', ' ', 'a'] (.lit ['a']) 0 (.ok ⟨2, 1⟩ 3) ∧
    Primitive (.lit ['a'] : Pat Char Nat) := ⟨⟨5, by decide⟩, trivial⟩

/-- When `p` fails, what the policy skipped stays skipped, although `try_mat`
documents that a failed match leaves the position unchanged
(`src/ctx/policy.rs:154-160`). -/
theorem C31_failed_match_keeps_skip_counterexample :
    Runs (β := Nat) G0 (some spaces) [' ', 'b'] (.lit ['a']) 0 (.err .literal 1) := ⟨5, by decide⟩

/-! ## C32 -/

/-- The policy pattern skips nothing where it has just stopped. -/
def IdemPol (G : Rules ι β) (d : List ι) (q : Pat ι β) : Prop :=
  ∀ o s o1, Runs G none d q o (.ok s o1) → ∃ s', Runs G none d q o1 (.ok s' o1)

/-- `u.many0()` (white space skipping) is such a policy on every input. -/
theorem many0_idempotent (u : Neu ι) : IdemPol (β := β) G d (.many0 u .empty) := by
  intro o s o1 h
  by_cases hv : Valid d o
  · obtain ⟨run, rest, ⟨⟨pre, hd, hp⟩, -, hst⟩, -, rfl⟩ := ((C23_many0 u .empty o hv).1 s o1).mp h
    have hv' : Valid d (o + blen run) := ⟨pre ++ run, rest, hd, by rw [blen_append, hp]⟩
    refine ⟨⟨o + blen run, 0⟩, ((C23_many0 u .empty _ hv').1 _ _).mpr ⟨[], rest, ⟨?_, ?_, ?_⟩, rfl, rfl⟩⟩
    · exact ⟨pre ++ run, by simpa using hd, by rw [blen_append, hp]⟩
    · intro a x b hh; simp at hh
    · intro x b hr _
      rcases hst x b hr trivial with ⟨-, h2⟩ | ⟨h1, -⟩
      · cases h2
      · exact .inr ⟨h1, rfl⟩
  · obtain ⟨n, hn⟩ := h
    by_cases hle : o ≤ blen d
    · have := stuck_inv G n d (.many0 u .empty) o hv hle (All.intro trivial fun _ h => absurd h id) _ hn
      simp only [StuckAt] at this
      obtain ⟨rfl, rfl⟩ := this
      exact ⟨_, n, hn⟩
    · cases n with
      | zero => cases hn
      | succ n =>
        have hn' : many0Parse (matWith (parse G n) none) d u .empty o = some (.ok s o1) := hn
        simp [many0Parse, remK, hle] at hn'

/-- Post-condition: the span starts at `o`. -/
def BegAt (o : Nat) : Res Span → Prop
  | .ok s _ => s.beg = o
  | _ => True

theorem LeafPost.begAt {d : List ι} {o : Nat} {tp : Prop} {r : Res Span}
    (h : LeafPost d o tp r) : BegAt o r := by
  cases r <;> simp_all [LeafPost, BegAt]

/-- At a position where the policy skips nothing, spans start at the position. -/
theorem begins_inv (G : Rules ι β) (n : Nat) (q : Pat ι β) (d : List ι) (p : Pat ι β) (o : Nat)
    (hq : ∃ s', Runs G none d q o (.ok s' o)) (h : All G Tidy p) :
    Sat (parse G n (some q) d p o) (BegAt o) := by
  induction n generalizing p with
  | zero => exact Sat.none
  | succ n ih =>
    have I : ∀ p', Child G p' p → Sat (matWith (parse G n) (some q) d p' o) (BegAt o) := by
      intro p' hc r hr
      simp only [matWith] at hr
      obtain ⟨s', N, hN⟩ := hq
      cases hv : parse G n none d q o with
      | none => simp [hv, caseR] at hr
      | some v =>
        have h1 := parse_mono G none d q o n (max n N) (by omega) v hv
        have h2 := parse_mono G none d q o N (max n N) (by omega) _ hN
        simp only [h1, Option.some.injEq] at h2
        subst h2
        rw [hv] at hr
        exact ih p' (h.child hc) r hr
    have T : ∀ p' o, Sat (matWith (parse G n) (some q) d p' o) (fun _ => True) := fun _ _ => sat_true _
    have E : ∀ (e : Error) o', Sat (some (Res.err e o' : Res Span)) (BegAt o) := fun _ _ => Sat.some trivial
    have K : ∀ (l o' : Nat), Sat (some (Res.ok ⟨o, l⟩ o')) (BegAt o) := fun _ _ => Sat.some rfl
    have K' : ∀ (s : Span) (o' : Nat), s.beg = o → Sat (some (Res.ok s o')) (BegAt o) :=
      fun _ _ h => Sat.some h
    have A : ∀ {s t u : Span}, s.beg = o → s.addAssign t = some u → u.beg = o := by
      intro s t u h ha
      rw [addAssign_eq] at ha
      omega
    have fin : ∀ ok e cnt (t : Span) o', t.beg = o → Sat (finish ok e o cnt t o') (BegAt o) := by
      intro ok e cnt t o' ht; unfold finish; split
      · exact Sat.some ht
      · exact Sat.some trivial
    have loopR : ∀ (p' : Pat ι β) (more : Nat → Bool) (ok : Nat → Bool) (e : Error),
        Sat (repLoop (matWith (parse G n) (some q) d) p' more (finish ok e o) n 0 ⟨o, 0⟩ o)
          (BegAt o) := by
      intro p' more ok e
      refine sat_repLoop (fun _ t _ => t.beg = o) (fun cnt t o' hJ _ => ?_)
        (fun _ _ _ h _ => fin _ _ _ _ _ h) _ _ _ _ rfl
      intro r _
      cases r with
      | ok s o'' => exact ⟨fun t' ht => A hJ ht, fun _ => trivial⟩
      | err e o'' => exact fin _ _ _ _ _ hJ
      | panic => trivial
    have loopS : ∀ (p' s : Pat ι β) (skip : Bool) (more : Nat → Bool) (ok : Nat → Bool) (e : Error),
        Sat (sepLoop (matWith (parse G n) (some q) d) p' s skip more (finish ok e o) n 0 ⟨o, 0⟩ o)
          (BegAt o) := by
      intro p' s skip more ok e
      refine sat_sepLoop (fun _ t _ => t.beg = o) (fun cnt t o' hJ _ => ?_)
        (fun _ _ _ h _ => fin _ _ _ _ _ h) _ _ _ _ rfl
      intro r _
      cases r with
      | ok ps o1 =>
        intro r' _
        cases r' with
        | ok ss o2 => exact ⟨fun t1 t2 h1 h2 => A (A hJ h1) h2, fun _ => trivial, fun _ _ _ => trivial⟩
        | err e o2 =>
          exact ⟨fun _ => ⟨fun t1 h1 => fin _ _ _ _ _ (A hJ h1), fun _ => trivial⟩,
            fun _ => fin _ _ _ _ _ hJ⟩
        | panic => trivial
      | err e o'' => exact fin _ _ _ _ _ hJ
      | panic => trivial
    have P : True → BegAt o .panic := id
    have two : ∀ a b, Child G a p →
        Sat (caseR (matWith (parse G n) (some q) d a o)
          (fun s1 o1 => caseR (matWith (parse G n) (some q) d b o1)
            (fun s2 o2 => addK s1 s2 fun s => some (.ok s o2))
            (fun e _ => some (.err e o)))
          (fun e _ => some (.err e o))) (BegAt o) := by
      intro a b ha
      exact sat_caseR (I _ ha) (fun _ _ h1 => sat_caseR (T _ _)
        (fun _ _ _ => sat_addK (fun _ hs => K' _ _ (A h1 hs)) (fun _ => trivial))
        (fun _ _ _ => E _ _) P) (fun _ _ _ => E _ _) (fun _ => trivial)
    simp only [parse]
    cases p <;> simp only [step]
    case empty => exact K _ _
    case fail => exact E _ _
    case start => exact sat_ite (fun _ => K _ _) (fun _ => E _ _)
    case anchorEnd => exact sat_ite (fun _ => K _ _) (fun _ => E _ _)
    case consume => exact sat_remK (fun _ => sat_ite (fun _ => K _ _) (fun _ => E _ _)) (fun _ => trivial)
    case consumeAll => exact K _ _
    case lit => exact (leaf_lit _ _ _ True).imp fun _ => LeafPost.begAt
    case native f =>
      intro r hr
      have := h.self
      simp only [Tidy, Option.some.injEq] at this hr
      cases r with
      | ok s o' => exact ((this d o).1 s o' hr).1
      | err e o' => trivial
      | panic => trivial
    case once => exact (leaf_once _ _ _ _ _).imp fun _ => LeafPost.begAt
    case many1 => exact (leaf_many1 _ _ _ _ _).imp fun _ => LeafPost.begAt
    case optU => exact (leaf_optU _ _ _ _ _).imp fun _ => LeafPost.begAt
    case many0 => exact (leaf_many0 _ _ _ _ _).imp fun _ => LeafPost.begAt
    case between => exact (leaf_between _ _ _ _ _ _ _).imp fun _ => LeafPost.begAt
    case times => exact (leaf_times _ _ _ _ _ _).imp fun _ => LeafPost.begAt
    case thenU => exact (leaf_thenU _ _ _ _ _ _).imp fun _ => LeafPost.begAt
    case assert =>
      exact sat_caseR (T _ _) (fun _ _ _ => sat_ite (fun _ => K _ _) (fun _ => E _ _))
        (fun _ _ _ => sat_ite (fun _ => E _ _) (fun _ => K _ _)) P
    case thn => exact two _ _ (.inl rfl)
    case pre => exact two _ _ (.inl rfl)
    case suf => exact two _ _ (.inl rfl)
    case ifThen =>
      exact sat_caseR (I _ (.inl rfl)) (fun s1 o1 h1 => sat_caseR (T _ _)
        (fun _ o2 _ => sat_addK (fun _ hs => sat_caseR (T _ _)
          (fun _ _ _ => sat_addK (fun _ hs' => K' _ _ (A (A h1 hs) hs')) (fun _ => trivial))
          (fun _ _ _ => E _ _) P) (fun _ => trivial)) (fun _ _ _ => K' _ _ h1) P)
        (fun _ _ _ => E _ _) (fun _ => trivial)
    case enclose =>
      exact sat_caseR (I _ (.inl rfl)) (fun s1 o1 h1 => sat_caseR (T _ _)
        (fun _ o2 _ => sat_addK (fun _ hs => sat_caseR (T _ _)
          (fun _ _ _ => sat_addK (fun _ hs' => K' _ _ (A (A h1 hs) hs')) (fun _ => trivial))
          (fun _ _ _ => E _ _) P) (fun _ => trivial)) (fun _ _ _ => E _ _) P)
        (fun _ _ _ => E _ _) (fun _ => trivial)
    case sepOnce =>
      exact sat_caseR (T _ _) (fun s1 o1 _ => sat_addK (fun _ hs0 => sat_caseR (T _ _)
        (fun _ o2 _ => sat_addK (fun _ hs => sat_caseR (T _ _)
          (fun _ _ _ => sat_addK (fun _ hs' => K' _ _ (A (A (A rfl hs0) hs) hs')) (fun _ => trivial))
          (fun _ _ _ => E _ _) P) (fun _ => trivial)) (fun _ _ _ => E _ _) P) (fun _ => trivial))
        (fun _ _ _ => E _ _) P
    case or =>
      exact sat_caseR (I _ (.inl rfl)) (fun _ _ h1 => K' _ _ h1) (fun _ _ _ =>
        sat_caseR (I _ (.inr rfl)) (fun _ _ h1 => K' _ _ h1) (fun _ _ _ => E _ _) (fun _ => trivial))
        (fun _ => trivial)
    case longest =>
      exact sat_caseR (I _ (.inl rfl)) (fun _ _ h1 => sat_caseR (I _ (.inr rfl))
        (fun _ _ h2 => sat_ite (fun _ => K' _ _ h1) (fun _ => K' _ _ h2)) (fun _ _ _ => K' _ _ h1)
        (fun _ => trivial)) (fun _ _ _ => sat_caseR (I _ (.inr rfl)) (fun _ _ h2 => K' _ _ h2)
        (fun _ _ _ => E _ _) (fun _ => trivial)) (fun _ => trivial)
    case opt =>
      exact sat_caseR (I _ rfl) (fun _ _ h1 => K' _ _ h1) (fun _ _ _ => K _ _) (fun _ => trivial)
    case choice e items =>
      refine sat_choiceLoop items (fun it hit => (I _ ⟨it, hit, rfl⟩).imp fun r hr => ?_) trivial
      cases r
      · exact hr
      · trivial
      · trivial
    case ltm e items => exact absurd h.self id
    case rep => exact loopR _ _ _ _
    case rep2 => exact loopR _ _ _ _
    case collect => exact loopR _ _ _ _
    case sep => exact loopS _ _ _ _ _ _
    case sep2 => exact loopS _ _ _ _ _ _
    case sepCollect => exact loopS _ _ _ _ _ _
    case branch =>
      refine sat_caseO (sat_true _) (fun t _ => sat_caseR (P := BegAt o) ?_
        (fun _ _ h1 => K' _ _ h1) (fun _ _ _ => E _ _) (fun _ => trivial)) (fun _ _ => E _ _) P
      cases t
      · exact I _ (.inr rfl)
      · exact I _ (.inl rfl)
    case map => exact I _ rfl
    case pat => exact I _ rfl
    case build q f => exact absurd h.self id
    case dthen => exact Sat.some trivial
    case cell i =>
      split
      · exact E _ _
      · next q' hq' => exact ih q' (h.child hq')

/-- **C32.** Under a policy that skips nothing where it has just stopped (such as
`many0` white space), `longest` leaves the offset at the end of the winning
span. -/
theorem C32_longest_under_idempotent_policy_partial (q a b : Pat ι β) (hq : IdemPol G d q)
    (ha : All G Tidy a) (hb : All G Tidy b) (o : Nat) (s : Span) (o' : Nat)
    (h : Runs G (some q) d (.longest a b) o (.ok s o')) : s.beg + s.len = o' := by
  rcases (C31_policy_runs_first q _ o _).mp h with ⟨sq, o1, hsq, hp⟩ | ⟨_, _, _, h⟩ | ⟨_, h⟩
  · have hfix := hq o sq o1 hsq
    have key : s.beg = o1 := by
      obtain ⟨n, hn⟩ := hp
      have hl : All G Tidy (.longest a b) :=
        All.intro trivial fun q hc => by rcases hc with rfl | rfl <;> assumption
      exact begins_inv G n q d _ o1 hfix hl _ hn
    rw [parses_iff, parseL_longest] at hp
    simp only [caseR_some, Option.some.injEq, Res.ok.injEq, reduceCtorEq, and_false, or_false,
      false_or, exists_const, exists_false] at hp
    rcases hp with ⟨l, ol, _, ⟨r, or', _, h3⟩ | ⟨e, oe, _, h3⟩⟩ | ⟨e, oe, _, r, or', _, h3⟩
    · split at h3
      · simp only [Option.some.injEq, Res.ok.injEq] at h3
        obtain ⟨rfl, rfl⟩ := h3; omega
      · simp only [Option.some.injEq, Res.ok.injEq] at h3
        obtain ⟨rfl, rfl⟩ := h3; omega
    · obtain ⟨rfl, rfl⟩ := h3; omega
    · obtain ⟨rfl, rfl⟩ := h3; omega
  · cases h
  · cases h

/-- Hypotheses met and match real: `"ab"` wins over `"a"` after two blanks. -/
example : IdemPol (G0 : Rules Char Nat) [' ', ' ', 'a', 'b'] spaces ∧
    Runs (β := Nat) G0 (some spaces) [' ', ' ', 'a', 'b'] (.longest (.lit ['a']) (.lit ['a', 'b'])) 0
      (.ok ⟨2, 2⟩ 4) := ⟨many0_idempotent _, 6, by decide⟩

/-- **C32 counterexample.** With a policy that can skip again (one optional
blank), the offset is set to "offset before the alternatives' own skipping plus
length of the winner" (`src/ctor/longest.rs:239-261`): span `2..4`, offset 3. -/
theorem C32_longest_policy_counterexample :
    Runs (β := Nat) G0 (some (.optU (.item ' ') .empty)) [' ', ' ', 'a', 'b']
      (.longest (.lit ['a']) (.lit ['a', 'b'])) 0 (.ok ⟨2, 2⟩ 3) := ⟨6, by decide⟩

end Neure
