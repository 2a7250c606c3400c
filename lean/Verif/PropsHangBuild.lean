import Verif.PropsHang

/-!
# C35: the only ways building a value hangs

For every pattern and handler, in plain and policy contexts: building a value never returns
if and only if it waits for building another value, which waits for building another one
and so on without end, or it comes, in finitely many such steps, to a loop all of whose
rounds succeed for ever or to a match that never returns.  When a match never returns is
said by `C35_hangs_iff`.
-/

set_option linter.unusedSectionVars false
set_option linter.unusedSimpArgs false

namespace Neure

open Demo

namespace HangBuild

open LeftRec (FailsAll con_or)
open Hang (RepeatOf ListOf)

variable {ι β σ : Type} [Item ι] {G : Rules ι β} {H : Handler ι β σ} {pol : Option (Pat ι β)}
  {d : List ι}

/-- A call made while building a value: building one with `q` at `o`, the handler being in
state `st`, or matching `q` at `o`. -/
inductive Call (ι β σ : Type) where
  | build (q : Pat ι β) (st : σ) (o : Nat)
  | mat (q : Pat ι β) (o : Nat)

/-- Building each of these alternatives at `o`, one after the other, succeeds or fails and
turns the handler state from `st` into `st'`. -/
inductive TriesAll (G : Rules ι β) (H : Handler ι β σ) (pol : Option (Pat ι β)) (d : List ι) (o : Nat) :
    List (Pat ι β × Option (Val β)) → σ → σ → Prop where
  | nil {st} : TriesAll G H pol d o [] st st
  | ok {it rest st v st1 o1 st2} : Constructs G H pol d it.1 st o (.ok v st1 o1) →
      TriesAll G H pol d o rest st1 st2 → TriesAll G H pol d o (it :: rest) st st2
  | err {it rest st e st1 o1 st2} : Constructs G H pol d it.1 st o (.err e st1 o1) →
      TriesAll G H pol d o rest st1 st2 → TriesAll G H pol d o (it :: rest) st st2

/-- Building a value with `p` at `o` comes to the point where it makes this call, and waits
for it. -/
inductive Awaits (G : Rules ι β) (H : Handler ι β σ) (pol : Option (Pat ι β)) (d : List ι) :
    Pat ι β → σ → Nat → Call ι β σ → Prop where
  | leaf {p st o} : Leaf p → Awaits G H pol d p st o (.mat p o)
  | pat {q st o} : Awaits G H pol d (.pat q) st o (.mat q o)
  | cell {i q st o} : G i = some q → Awaits G H pol d (.cell i) st o (.build q st o)
  | thn {a b st o} : Awaits G H pol d (.thn a b) st o (.build a st o)
  | thn2 {a b st o v st1 o1} : Constructs G H pol d a st o (.ok v st1 o1) →
      Awaits G H pol d (.thn a b) st o (.build b st1 o1)
  | pre {a b st o} : Awaits G H pol d (.pre a b) st o (.mat a o)
  | pre2 {a b st o s o1} : Runs G pol d a o (.ok s o1) → Awaits G H pol d (.pre a b) st o (.build b st o1)
  | suf {a b st o} : Awaits G H pol d (.suf a b) st o (.build a st o)
  | suf2 {a b st o v st1 o1} : Constructs G H pol d a st o (.ok v st1 o1) →
      Awaits G H pol d (.suf a b) st o (.mat b o1)
  | enclose {a b c st o} : Awaits G H pol d (.enclose a b c) st o (.mat a o)
  | enclose2 {a b c st o s o1} : Runs G pol d a o (.ok s o1) →
      Awaits G H pol d (.enclose a b c) st o (.build b st o1)
  | enclose3 {a b c st o s o1 v st1 o2} : Runs G pol d a o (.ok s o1) →
      Constructs G H pol d b st o1 (.ok v st1 o2) → Awaits G H pol d (.enclose a b c) st o (.mat c o2)
  | sepOnce {a b c st o} : Awaits G H pol d (.sepOnce a b c) st o (.build a st o)
  | sepOnce2 {a b c st o v st1 o1} : Constructs G H pol d a st o (.ok v st1 o1) →
      Awaits G H pol d (.sepOnce a b c) st o (.mat b o1)
  | sepOnce3 {a b c st o v st1 o1 s o2} : Constructs G H pol d a st o (.ok v st1 o1) →
      Runs G pol d b o1 (.ok s o2) → Awaits G H pol d (.sepOnce a b c) st o (.build c st1 o2)
  | ifThen {a t b st o} : Awaits G H pol d (.ifThen a t b) st o (.build a st o)
  | ifThen2 {a t b st o v st1 o1} : Constructs G H pol d a st o (.ok v st1 o1) →
      Awaits G H pol d (.ifThen a t b) st o (.mat t o1)
  | ifThen3 {a t b st o v st1 o1 s o2} : Constructs G H pol d a st o (.ok v st1 o1) →
      Runs G pol d t o1 (.ok s o2) → Awaits G H pol d (.ifThen a t b) st o (.build b st1 o2)
  | or {a b st o} : Awaits G H pol d (.or a b) st o (.build a st o)
  | or2 {a b st o e st1 o1} : Constructs G H pol d a st o (.err e st1 o1) →
      Awaits G H pol d (.or a b) st o (.build b st1 o)
  | longest {a b st o} : Awaits G H pol d (.longest a b) st o (.build a st o)
  | longest2 {a b st o v st1 o1} : Constructs G H pol d a st o (.ok v st1 o1) →
      Awaits G H pol d (.longest a b) st o (.build b st1 o)
  | longest3 {a b st o e st1 o1} : Constructs G H pol d a st o (.err e st1 o1) →
      Awaits G H pol d (.longest a b) st o (.build b st1 o)
  | opt {q st o} : Awaits G H pol d (.opt q) st o (.build q st o)
  | map {q f st o} : Awaits G H pol d (.map q f) st o (.build q st o)
  | dthen {q f st o} : Awaits G H pol d (.dthen q f) st o (.build q st o)
  | dthen2 {q f st o v st1 o1 p' o2} : Constructs G H pol d q st o (.ok v st1 o1) →
      f d o1 v = .ok p' o2 → Awaits G H pol d (.dthen q f) st o (.build p' st1 o2)
  | branch {t a b c st o} : t d o = .ok c →
      Awaits G H pol d (.branch t a b) st o (.build (if c then a else b) st o)
  | choice {e before it after st st1 o} : FailsAll G H pol d o before st st1 →
      Awaits G H pol d (.choice e (before ++ it :: after)) st o (.build it.1 st1 o)
  | ltm {e before it after st st1 o} : TriesAll G H pol d o before st st1 →
      Awaits G H pol d (.ltm e (before ++ it :: after)) st o (.build it.1 st1 o)
  | round {p q on vs st o st1 o1} : RepeatOf p q on → Built G H pol d q vs st o st1 o1 →
      (∀ j, j ≤ vs.length → on j) → Awaits G H pol d p st o (.build q st1 o1)
  | element {p q s on vs st o st1 o1} : ListOf p q s on → BuiltSep G H pol d q s vs st o st1 o1 →
      (∀ j, j ≤ vs.length → on j) → Awaits G H pol d p st o (.build q st1 o1)
  | separator {p q s on vs st o st1 o1 v st2 o2} : ListOf p q s on →
      BuiltSep G H pol d q s vs st o st1 o1 → (∀ j, j ≤ vs.length → on j) →
      Constructs G H pol d q st1 o1 (.ok v st2 o2) → Awaits G H pol d p st o (.mat s o2)
  /-- `sepCollect` that keeps its last element tries for one more after the separator failed. -/
  | again {q s m vs st o st1 o1 v st2 o2 e o3} : BuiltSep G H pol d q s vs st o st1 o1 →
      Constructs G H pol d q st1 o1 (.ok v st2 o2) → Runs G pol d s o2 (.err e o3) →
      Awaits G H pol d (.sepCollect q s true m) st o (.build q st2 o3)
  | again2 {q s m vs st o st1 o1 v st2 o2 e o3 v' st3 o4} : BuiltSep G H pol d q s vs st o st1 o1 →
      Constructs G H pol d q st1 o1 (.ok v st2 o2) → Runs G pol d s o2 (.err e o3) →
      Constructs G H pol d q st2 o3 (.ok v' st3 o4) →
      Awaits G H pol d (.sepCollect q s true m) st o (.mat s o4)

/-- `p` at `o` is a loop all of whose rounds succeed: for every number there are that many
rounds. -/
inductive Endless (G : Rules ι β) (H : Handler ι β σ) (pol : Option (Pat ι β)) (d : List ι) :
    Pat ι β → σ → Nat → Prop where
  | rounds {p q on st o} : RepeatOf p q on →
      (∀ k, on k ∧ ∃ vs st1 o1, vs.length = k ∧ Built G H pol d q vs st o st1 o1) → Endless G H pol d p st o
  | list {p q s on st o} : ListOf p q s on →
      (∀ k, on k ∧ ∃ vs st1 o1, vs.length = k ∧ BuiltSep G H pol d q s vs st o st1 o1) →
      Endless G H pol d p st o

/-- In finitely many steps from one building call to another. -/
inductive Steps (G : Rules ι β) (H : Handler ι β σ) (pol : Option (Pat ι β)) (d : List ι) :
    Pat ι β → σ → Nat → Pat ι β → σ → Nat → Prop where
  | here {p st o} : Steps G H pol d p st o p st o
  | next {p st o q st1 o1 r st2 o2} : Awaits G H pol d p st o (.build q st1 o1) →
      Steps G H pol d q st1 o1 r st2 o2 → Steps G H pol d p st o r st2 o2

/-- `p` at `o` is an endless loop, or waits for a match that never returns. -/
def Stuck (G : Rules ι β) (H : Handler ι β σ) (pol : Option (Pat ι β)) (d : List ι)
    (p : Pat ι β) (st : σ) (o : Nat) : Prop :=
  Endless G H pol d p st o ∨
    ∃ q o', Awaits G H pol d p st o (.mat q o') ∧ ∀ r, ¬ Runs G pol d q o' r

/-! ## Lemmas -/

/-- The call has no answer within `n` steps (a match: never). -/
def Silent (G : Rules ι β) (H : Handler ι β σ) (pol : Option (Pat ι β)) (d : List ι) (n : Nat) :
    Call ι β σ → Prop
  | .build q st o => con G H n pol d q st o = none
  | .mat q o => ∀ m, tryMat G m pol d q o = none

theorem mat_or {n : Nat} {q : Pat ι β} {o : Nat} {r : Res Span} (h : Runs G pol d q o r) :
    tryMat G n pol d q o = none ∨ tryMat G n pol d q o = some r := LeftRec.matWith_or (n := n) h

theorem Built.snoc {q : Pat ι β} {vs : List (Val β)} {v : Val β} {st st1 st2 : σ} {o o1 o2 : Nat}
    (h : Built G H pol d q vs st o st1 o1) (hc : Constructs G H pol d q st1 o1 (.ok v st2 o2)) :
    Built G H pol d q (vs ++ [v]) st o st2 o2 := by
  induction h with
  | nil => exact .cons hc (.nil _ _)
  | cons h1 _ ih => exact .cons h1 (ih hc)

theorem BuiltSep.snoc {q s : Pat ι β} {vs : List (Val β)} {v : Val β} {st st1 st2 : σ} {ss : Span}
    {o o1 o2 o3 : Nat} (h : BuiltSep G H pol d q s vs st o st1 o1)
    (hc : Constructs G H pol d q st1 o1 (.ok v st2 o2)) (hs : Runs G pol d s o2 (.ok ss o3)) :
    BuiltSep G H pol d q s (vs ++ [v]) st o st2 o3 := by
  induction h with
  | nil => exact .cons hc hs (.nil _ _)
  | cons h1 h2 _ ih => exact .cons h1 h2 (ih hc)

section Fuel

variable {n : Nat} {q s : Pat ι β} {more room : Nat → Bool}
  {fin : Nat → List (Val β) → σ → Nat → Option (CRes σ (Val β))}

theorem conRep_none {vs : List (Val β)} {st st1 : σ} {o o1 : Nat} (h : Built G H pol d q vs st o st1 o1)
    (hn : con G H n pol d q st1 o1 = none) (fuel cnt : Nat) (vals : List (Val β))
    (hm : ∀ j, j ≤ vs.length → more (cnt + j) = true) (hr : ∀ j, j < vs.length → room (cnt + j) = true) :
    conRep (con G H n pol d) q more room fin fuel cnt vals st o = none := by
  induction h generalizing fuel cnt vals with
  | nil =>
    cases fuel with
    | zero => rfl
    | succ fuel =>
      have := hm 0 (Nat.le_refl _)
      simp only [Nat.add_zero] at this
      simp [conRep, this, hn, caseC]
  | cons h1 _ ih =>
    cases fuel with
    | zero => rfl
    | succ fuel =>
      have hm0 := hm 0 (Nat.zero_le _)
      have hr0 := hr 0 (by simp)
      simp only [Nat.add_zero] at hm0 hr0
      simp only [conRep, hm0, hr0, if_true]
      rcases con_or (n := n) h1 with h' | h'
      · simp only [h', caseC]
      · simp only [h', caseC]
        exact ih hn fuel (cnt + 1) _
          (fun j hj => by
            rw [show cnt + 1 + j = cnt + (j + 1) by omega]; exact hm _ (by simp only [List.length_cons]; omega))
          (fun j hj => by
            rw [show cnt + 1 + j = cnt + (j + 1) by omega]; exact hr _ (by simp only [List.length_cons]; omega))

theorem conSep_none {skip : Bool} {vs : List (Val β)} {st st1 : σ} {o o1 : Nat}
    (h : BuiltSep G H pol d q s vs st o st1 o1)
    (hn : con G H n pol d q st1 o1 = none ∨
      ∃ v st2 o2, Constructs G H pol d q st1 o1 (.ok v st2 o2) ∧ tryMat G n pol d s o2 = none)
    (fuel cnt : Nat) (vals : List (Val β))
    (hm : ∀ j, j ≤ vs.length → more (cnt + j) = true) (hr : ∀ j, j < vs.length → room (cnt + j) = true) :
    conSep (con G H n pol d) (tryMat G n pol d s) q skip more room fin fuel cnt vals st o = none := by
  induction h generalizing fuel cnt vals with
  | nil =>
    cases fuel with
    | zero => rfl
    | succ fuel =>
      have := hm 0 (Nat.le_refl _)
      simp only [Nat.add_zero] at this
      rcases hn with hn | ⟨v, st2, o2, hc, hn⟩
      · simp [conSep, this, hn, caseC]
      · rcases con_or (n := n) hc with h' | h' <;> simp [conSep, this, h', hn, caseC, caseM]
  | cons h1 h2 _ ih =>
    cases fuel with
    | zero => rfl
    | succ fuel =>
      have hm0 := hm 0 (Nat.zero_le _)
      have hr0 := hr 0 (by simp)
      simp only [Nat.add_zero] at hm0 hr0
      simp only [conSep, hm0, hr0, if_true]
      rcases con_or (n := n) h1 with h' | h'
      · simp only [h', caseC]
      · rcases mat_or (n := n) h2 with h'' | h''
        · simp only [h', h'', caseC, caseM]
        · simp only [h', h'', caseC, caseM]
          exact ih hn fuel (cnt + 1) _
            (fun j hj => by
              rw [show cnt + 1 + j = cnt + (j + 1) by omega]; exact hm _ (by simp only [List.length_cons]; omega))
            (fun j hj => by
              rw [show cnt + 1 + j = cnt + (j + 1) by omega]; exact hr _ (by simp only [List.length_cons]; omega))

theorem conSepCollect_none {skip : Bool} {vs : List (Val β)} {st st1 : σ} {o o1 : Nat}
    (h : BuiltSep G H pol d q s vs st o st1 o1)
    (hn : con G H n pol d q st1 o1 = none ∨
      ∃ v st2 o2, Constructs G H pol d q st1 o1 (.ok v st2 o2) ∧ (tryMat G n pol d s o2 = none ∨
        skip = true ∧ ∃ e o3, Runs G pol d s o2 (.err e o3) ∧ (con G H n pol d q st2 o3 = none ∨
          ∃ v' st3 o4, Constructs G H pol d q st2 o3 (.ok v' st3 o4) ∧ tryMat G n pol d s o4 = none)))
    (fuel cnt : Nat) (vals : List (Val β)) :
    conSepCollect (con G H n pol d) (tryMat G n pol d s) q skip fin fuel false cnt vals st o = none := by
  induction h generalizing fuel cnt vals with
  | nil =>
    cases fuel with
    | zero => rfl
    | succ fuel =>
      rcases hn with hn | ⟨v, st2, o2, hc, hn | ⟨rfl, e, o3, hr, hn⟩⟩
      · simp [conSepCollect, hn, caseC]
      · rcases con_or (n := n) hc with h' | h' <;> simp [conSepCollect, h', hn, caseC, caseM]
      · rcases con_or (n := n) hc with h' | h'
        · simp [conSepCollect, h', caseC, caseM]
        · rcases mat_or (n := n) hr with h'' | h''
          · simp [conSepCollect, h', h'', caseC, caseM]
          · cases fuel with
            | zero => simp [conSepCollect, h', h'', caseC, caseM]
            | succ fuel =>
              rcases hn with hn | ⟨v', st3, o4, hc', hn⟩
              · simp [conSepCollect, h', h'', hn, caseC, caseM]
              · rcases con_or (n := n) hc' with g | g <;> simp [conSepCollect, h', h'', g, hn, caseC, caseM]
  | cons h1 h2 _ ih =>
    cases fuel with
    | zero => rfl
    | succ fuel =>
      simp only [conSepCollect]
      rcases con_or (n := n) h1 with h' | h'
      · simp only [h', caseC]
      · rcases mat_or (n := n) h2 with h'' | h''
        · simp only [h', h'', caseC, caseM]
        · simp only [h', h'', caseC, caseM]
          exact ih hn fuel (cnt + 1) _

theorem conChoice_none {e : Error} {it : Pat ι β × Option (Val β)} {after} {o : Nat}
    {before : List (Pat ι β × Option (Val β))} {st st1 : σ}
    (hb : FailsAll G H pol d o before st st1) (h : con G H n pol d it.1 st1 o = none) :
    conChoice (con G H n pol d) e o (before ++ it :: after) st o = none :=
  LeftRec.conChoice_none (q := it.1) (k := it.2) hb h

theorem conLtm_none {e : Error} {it : Pat ι β × Option (Val β)} {after} {o : Nat}
    {before : List (Pat ι β × Option (Val β))} {st st1 : σ}
    (hb : TriesAll G H pol d o before st st1) (h : con G H n pol d it.1 st1 o = none)
    (best : Option (Val β)) (stop o' : Nat) :
    conLtm (con G H n pol d) e o (before ++ it :: after) best stop st o' = none := by
  induction hb generalizing best stop o' with
  | nil => cases best <;> simp only [List.nil_append, conLtm, h, caseC]
  | ok hc _ ih =>
    simp only [List.cons_append, conLtm]
    rcases con_or (n := n) hc with h' | h'
    · simp only [h', caseC]
    · simp only [h', caseC]
      split
      · exact ih h _ _ _
      · exact ih h _ _ _
  | err hc _ ih =>
    simp only [List.cons_append, conLtm]
    rcases con_or (n := n) hc with h' | h'
    · simp only [h', caseC]
    · simp only [h', caseC]
      exact ih h _ _ _

end Fuel

theorem awaits_none {n : Nat} {p : Pat ι β} {st : σ} {o : Nat} {c : Call ι β σ}
    (ha : Awaits G H pol d p st o c) (h : Silent G H pol d n c) : con G H (n + 1) pol d p st o = none := by
  cases ha with
  | leaf hl =>
    have h := h (n + 1)
    cases p <;> first | exact hl.elim | simp only [con, conStep, h, invokeK, caseM]
  | pat => simp only [con, conStep, h n, invokeK, caseM]
  | cell hG => simp only [Silent] at h; simp only [con, conStep, hG, h]
  | thn | suf | sepOnce | ifThen | or | longest | opt | map | dthen =>
    simp only [Silent] at h
    simp only [con, conStep, h, caseC]
  | pre | enclose => simp only [con, conStep, h n, caseM]
  | thn2 hr | or2 hr | longest2 hr | longest3 hr =>
    simp only [Silent] at h
    rcases con_or (n := n) hr with h' | h' <;> simp only [con, conStep, h', h, caseC]
  | pre2 hr | enclose2 hr =>
    simp only [Silent] at h
    rcases mat_or (n := n) hr with h' | h' <;> simp only [con, conStep, h', h, caseC, caseM]
  | suf2 hr | sepOnce2 hr | ifThen2 hr =>
    rcases con_or (n := n) hr with h' | h' <;> simp only [con, conStep, h', h n, caseC, caseM]
  | enclose3 hr hc =>
    rcases mat_or (n := n) hr with h' | h' <;> rcases con_or (n := n) hc with h'' | h'' <;>
      simp only [con, conStep, h', h'', h n, caseC, caseM]
  | sepOnce3 hr hm | ifThen3 hr hm =>
    simp only [Silent] at h
    rcases con_or (n := n) hr with h' | h' <;> rcases mat_or (n := n) hm with h'' | h'' <;>
      simp only [con, conStep, h', h'', h, caseC, caseM]
  | dthen2 hr hf =>
    simp only [Silent] at h
    rcases con_or (n := n) hr with h' | h' <;> simp only [con, conStep, h', h, hf, caseC, caseM]
  | branch ht => simp only [Silent] at h; simp [con, conStep, ht, h, caseT, caseC]
  | choice hb => simp only [con, conStep]; exact conChoice_none hb h
  | ltm hb => simp only [con, conStep]; exact conLtm_none hb h _ _ _
  | round hp hA hm =>
    cases hp <;> simp only [con, conStep]
    · exact conRep_none hA h _ _ _ (fun j hj => by rw [Nat.zero_add, more_iff]; exact hm j hj) (fun _ _ => rfl)
    · exact conRep_none hA h _ _ _ (fun j hj => by simpa using hm j hj)
        (fun j hj => by have h' : j + 1 ≤ _ := hm (j + 1) hj; simp only [Nat.zero_add, decide_eq_true_eq]; omega)
    · exact conRep_none hA h _ _ _ (fun _ _ => rfl) (fun _ _ => rfl)
  | element hp hA hm =>
    cases hp <;> simp only [con, conStep]
    · exact conSep_none hA (.inl h) _ _ _ (fun _ _ => rfl) (fun _ _ => rfl)
    · exact conSep_none hA (.inl h) _ _ _ (fun j hj => by simpa using hm j hj)
        (fun j hj => by have h' : j + 1 ≤ _ := hm (j + 1) hj; simp only [Nat.zero_add, decide_eq_true_eq]; omega)
    · exact conSepCollect_none hA (.inl h) _ _ _
  | separator hp hA hm hc =>
    cases hp <;> simp only [con, conStep]
    · exact conSep_none hA (.inr ⟨_, _, _, hc, h n⟩) _ _ _ (fun _ _ => rfl) (fun _ _ => rfl)
    · exact conSep_none hA (.inr ⟨_, _, _, hc, h n⟩) _ _ _ (fun j hj => by simpa using hm j hj)
        (fun j hj => by have h' : j + 1 ≤ _ := hm (j + 1) hj; simp only [Nat.zero_add, decide_eq_true_eq]; omega)
    · exact conSepCollect_none hA (.inr ⟨_, _, _, hc, .inl (h n)⟩) _ _ _
  | again hA hc hr =>
    simp only [con, conStep]
    exact conSepCollect_none hA (.inr ⟨_, _, _, hc, .inr ⟨rfl, _, _, hr, .inl h⟩⟩) _ _ _
  | again2 hA hc hr hc' =>
    simp only [con, conStep]
    exact conSepCollect_none hA (.inr ⟨_, _, _, hc, .inr ⟨rfl, _, _, hr, .inr ⟨_, _, _, hc', h n⟩⟩⟩) _ _ _

theorem con_of_none {p : Pat ι β} {st : σ} {o : Nat} (h : conL G H pol d p st o = none) (n : Nat) :
    con G H n pol d p st o = none := by
  cases hn : con G H n pol d p st o with
  | none => rfl
  | some r =>
    have := constructs_iff.mp (show Constructs G H pol d p st o r from ⟨n, hn⟩)
    rw [h] at this; cases this

theorem none_of_con {p : Pat ι β} {st : σ} {o : Nat} (h : ∀ n, con G H n pol d p st o = none) :
    conL G H pol d p st o = none := by
  cases hp : conL G H pol d p st o with
  | none => rfl
  | some r =>
    obtain ⟨n, hn⟩ := constructs_iff.mpr hp
    rw [h n] at hn; cases hn

theorem mat_of_none {q : Pat ι β} {o : Nat} (h : ∀ r, ¬ Runs G pol d q o r) (n : Nat) :
    tryMat G n pol d q o = none := by
  cases hn : tryMat G n pol d q o with
  | none => rfl
  | some r => exact absurd ⟨n, hn⟩ (h r)

theorem never_iff {p : Pat ι β} {st : σ} {o : Nat} :
    (∀ r, ¬ Constructs G H pol d p st o r) ↔ conL G H pol d p st o = none := by
  simp only [constructs_iff]
  cases conL G H pol d p st o <;> simp

theorem mat_never_iff {p : Pat ι β} {o : Nat} :
    (∀ r, ¬ Runs G pol d p o r) ↔ matL G pol d p o = none := by
  simp only [runs_iff]
  cases matL G pol d p o <;> simp

/-! ## Loops -/

section Loops

variable {q s : Pat ι β} {more room : Nat → Bool}
  {fin : Nat → List (Val β) → σ → Nat → Option (CRes σ (Val β))}

theorem conRep_short (fuel : Nat) : ∀ {vs : List (Val β)} {st st1 : σ} {o o1 : Nat} (cnt : Nat)
    (vals : List (Val β)), Built G H pol d q vs st o st1 o1 → fuel ≤ vs.length →
    (∀ j, more (cnt + j) = true) → (∀ j, room (cnt + j) = true) →
    conRep (conL G H pol d) q more room fin fuel cnt vals st o = none := by
  induction fuel with
  | zero => intros; rfl
  | succ fuel ih =>
    intro vs st st1 o o1 cnt vals h hk hm hr
    cases h with
    | nil => simp at hk
    | cons h1 h3 =>
      have h0 := hm 0
      have h0' := hr 0
      simp only [Nat.add_zero] at h0 h0'
      simp only [conRep, h0, h0', if_true, constructs_iff.mp h1, caseC]
      exact ih (cnt + 1) _ h3 (by simpa using hk)
        (fun j => by rw [show cnt + 1 + j = cnt + (j + 1) by omega]; exact hm _)
        (fun j => by rw [show cnt + 1 + j = cnt + (j + 1) by omega]; exact hr _)

theorem conSep_short {skip : Bool} (fuel : Nat) : ∀ {vs : List (Val β)} {st st1 : σ} {o o1 : Nat} (cnt : Nat)
    (vals : List (Val β)), BuiltSep G H pol d q s vs st o st1 o1 → fuel ≤ vs.length →
    (∀ j, more (cnt + j) = true) → (∀ j, room (cnt + j) = true) →
    conSep (conL G H pol d) (matL G pol d s) q skip more room fin fuel cnt vals st o = none := by
  induction fuel with
  | zero => intros; rfl
  | succ fuel ih =>
    intro vs st st1 o o1 cnt vals h hk hm hr
    cases h with
    | nil => simp at hk
    | cons h1 h2 h3 =>
      have h0 := hm 0
      have h0' := hr 0
      simp only [Nat.add_zero] at h0 h0'
      simp only [conSep, h0, h0', if_true, constructs_iff.mp h1, runs_iff.mp h2, caseC, caseM]
      exact ih (cnt + 1) _ h3 (by simpa using hk)
        (fun j => by rw [show cnt + 1 + j = cnt + (j + 1) by omega]; exact hm _)
        (fun j => by rw [show cnt + 1 + j = cnt + (j + 1) by omega]; exact hr _)

theorem conSepCollect_short {skip : Bool} (fuel : Nat) : ∀ {vs : List (Val β)} {st st1 : σ} {o o1 : Nat} (cnt : Nat)
    (vals : List (Val β)), BuiltSep G H pol d q s vs st o st1 o1 → fuel ≤ vs.length →
    conSepCollect (conL G H pol d) (matL G pol d s) q skip fin fuel false cnt vals st o = none := by
  induction fuel with
  | zero => intros; rfl
  | succ fuel ih =>
    intro vs st st1 o o1 cnt vals h hk
    cases h with
    | nil => simp at hk
    | cons h1 h2 h3 =>
      simp only [conSepCollect, constructs_iff.mp h1, runs_iff.mp h2, caseC, caseM]
      exact ih (cnt + 1) _ h3 (by simpa using hk)

theorem conRepL_endless {st : σ} {o : Nat} (hm : ∀ k, more k = true) (hr : ∀ k, room k = true)
    (h : ∀ k, ∃ vs st1 o1, vs.length = k ∧ Built G H pol d q vs st o st1 o1) :
    conRepL (conL G H pol d) q more room fin 0 [] st o = none := by
  cases hx : conRepL (conL G H pol d) q more room fin 0 [] st o with
  | none => rfl
  | some r =>
    have hmono : Mono fun k => conRep (conL G H pol d) q more room fin k 0 [] st o :=
      (approx_conRep (cn := fun _ => conL G H pol d) (cn' := conL G H pol d)
        (fun _ _ _ => approx_const _) q more room fin 0 [] st o).1
    obtain ⟨n, hn⟩ := (lim_eq_some hmono _).mp hx
    obtain ⟨vs, st1, o1, hl, hb⟩ := h n
    have := conRep_short (more := more) (room := room) (fin := fin) n 0 [] hb (by omega)
      (fun _ => hm _) (fun _ => hr _)
    simp only [this] at hn
    cases hn

theorem conSepL_endless {skip : Bool} {st : σ} {o : Nat} (hm : ∀ k, more k = true) (hr : ∀ k, room k = true)
    (h : ∀ k, ∃ vs st1 o1, vs.length = k ∧ BuiltSep G H pol d q s vs st o st1 o1) :
    conSepL (conL G H pol d) (matL G pol d s) q skip more room fin 0 [] st o = none := by
  cases hx : conSepL (conL G H pol d) (matL G pol d s) q skip more room fin 0 [] st o with
  | none => rfl
  | some r =>
    have hmono : Mono fun k =>
        conSep (conL G H pol d) (matL G pol d s) q skip more room fin k 0 [] st o :=
      (approx_conSep (cn := fun _ => conL G H pol d) (cn' := conL G H pol d)
        (ms := fun _ => matL G pol d s) (ms' := matL G pol d s)
        (fun _ _ _ => approx_const _) (fun _ => approx_const _) q skip more room fin 0 [] st o).1
    obtain ⟨n, hn⟩ := (lim_eq_some hmono _).mp hx
    obtain ⟨vs, st1, o1, hl, hb⟩ := h n
    have := conSep_short (skip := skip) (more := more) (room := room) (fin := fin) n 0 [] hb (by omega)
      (fun _ => hm _) (fun _ => hr _)
    simp only [this] at hn
    cases hn

theorem conSepCL_endless {skip : Bool} {st : σ} {o : Nat}
    (h : ∀ k, ∃ vs st1 o1, vs.length = k ∧ BuiltSep G H pol d q s vs st o st1 o1) :
    conSepCL (conL G H pol d) (matL G pol d s) q skip fin false 0 [] st o = none := by
  cases hx : conSepCL (conL G H pol d) (matL G pol d s) q skip fin false 0 [] st o with
  | none => rfl
  | some r =>
    have hmono : Mono fun k =>
        conSepCollect (conL G H pol d) (matL G pol d s) q skip fin k false 0 [] st o :=
      (approx_conSepCollect (cn := fun _ => conL G H pol d) (cn' := conL G H pol d)
        (ms := fun _ => matL G pol d s) (ms' := matL G pol d s)
        (fun _ _ _ => approx_const _) (fun _ => approx_const _) q skip fin false 0 [] st o).1
    obtain ⟨n, hn⟩ := (lim_eq_some hmono _).mp hx
    obtain ⟨vs, st1, o1, hl, hb⟩ := h n
    have := conSepCollect_short (skip := skip) (fin := fin) n 0 [] hb (by omega)
    simp only [this] at hn
    cases hn

theorem conRepL_waits {st : σ} {o : Nat} (hfin : ∀ c vs st o, fin c vs st o ≠ none)
    (h : conRepL (conL G H pol d) q more room fin 0 [] st o = none) :
    (∃ vs st1 o1, Built G H pol d q vs st o st1 o1 ∧ (∀ j, j ≤ vs.length → more j = true) ∧
      conL G H pol d q st1 o1 = none) ∨
    ∀ k, more k = true ∧ ∃ vs st1 o1, vs.length = k ∧ Built G H pol d q vs st o st1 o1 := by
  refine Classical.or_iff_not_imp_left.mpr fun hno => ?_
  have key : ∀ k, (∃ vs st1 o1, vs.length = k ∧ Built G H pol d q vs st o st1 o1 ∧
      conRepL (conL G H pol d) q more room fin k vs st1 o1 = none) ∧ ∀ j, j < k → more j = true := by
    intro k
    induction k with
    | zero => exact ⟨⟨[], st, o, rfl, .nil _ _, h⟩, fun j hj => by omega⟩
    | succ k ih =>
      obtain ⟨⟨vs, st1, o1, hl, hb, hn⟩, hj⟩ := ih
      rw [conRepL_eq] at hn
      cases hm : more k with
      | false => rw [hm] at hn; exact absurd hn (hfin _ _ _ _)
      | true =>
        have hj' : ∀ j, j ≤ k → more j = true := fun j h => by
          rcases Nat.lt_or_eq_of_le h with h | rfl
          · exact hj j h
          · exact hm
        rw [if_pos hm] at hn
        refine ⟨?_, fun j h => hj' j (by omega)⟩
        cases hc : conL G H pol d q st1 o1 with
        | none => exact absurd ⟨vs, st1, o1, hb, by rw [hl]; exact hj', hc⟩ hno
        | some r =>
          rw [hc] at hn
          cases r with
          | panic => cases hn
          | err e st2 o2 => exact absurd hn (hfin _ _ _ _)
          | ok v st2 o2 =>
            simp only [caseC] at hn
            split at hn
            · exact ⟨vs ++ [v], st2, o2, by simp [hl], Built.snoc hb (constructs_iff.mpr hc), hn⟩
            · cases hn
  refine fun k => ⟨(key (k + 1)).2 k (Nat.lt_succ_self _), ?_⟩
  obtain ⟨vs, st1, o1, hl, hb, _⟩ := (key k).1
  exact ⟨vs, st1, o1, hl, hb⟩

theorem conSepL_waits {skip : Bool} {st : σ} {o : Nat} (hfin : ∀ c vs st o, fin c vs st o ≠ none)
    (h : conSepL (conL G H pol d) (matL G pol d s) q skip more room fin 0 [] st o = none) :
    (∃ vs st1 o1, BuiltSep G H pol d q s vs st o st1 o1 ∧ (∀ j, j ≤ vs.length → more j = true) ∧
      (conL G H pol d q st1 o1 = none ∨
        ∃ v st2 o2, Constructs G H pol d q st1 o1 (.ok v st2 o2) ∧ matL G pol d s o2 = none)) ∨
    ∀ k, more k = true ∧ ∃ vs st1 o1, vs.length = k ∧ BuiltSep G H pol d q s vs st o st1 o1 := by
  refine Classical.or_iff_not_imp_left.mpr fun hno => ?_
  have key : ∀ k, (∃ vs st1 o1, vs.length = k ∧ BuiltSep G H pol d q s vs st o st1 o1 ∧
      conSepL (conL G H pol d) (matL G pol d s) q skip more room fin k vs st1 o1 = none) ∧
      ∀ j, j < k → more j = true := by
    intro k
    induction k with
    | zero => exact ⟨⟨[], st, o, rfl, .nil _ _, h⟩, fun j hj => by omega⟩
    | succ k ih =>
      obtain ⟨⟨vs, st1, o1, hl, hb, hn⟩, hj⟩ := ih
      rw [conSepL_eq] at hn
      cases hm : more k with
      | false => rw [hm] at hn; exact absurd hn (hfin _ _ _ _)
      | true =>
        have hj' : ∀ j, j ≤ k → more j = true := fun j h => by
          rcases Nat.lt_or_eq_of_le h with h | rfl
          · exact hj j h
          · exact hm
        rw [if_pos hm] at hn
        refine ⟨?_, fun j h => hj' j (by omega)⟩
        cases hc : conL G H pol d q st1 o1 with
        | none => exact absurd ⟨vs, st1, o1, hb, by rw [hl]; exact hj', .inl hc⟩ hno
        | some r =>
          rw [hc] at hn
          cases r with
          | panic => cases hn
          | err e st2 o2 => exact absurd hn (hfin _ _ _ _)
          | ok v st2 o2 =>
            simp only [caseC] at hn
            cases hs : matL G pol d s o2 with
            | none =>
              exact absurd ⟨vs, st1, o1, hb, by rw [hl]; exact hj', .inr ⟨v, st2, o2, constructs_iff.mpr hc, hs⟩⟩ hno
            | some r =>
              rw [hs] at hn
              cases r with
              | panic => cases hn
              | err e o3 =>
                simp only [caseM] at hn
                split at hn
                · split at hn
                  · exact absurd hn (hfin _ _ _ _)
                  · cases hn
                · exact absurd hn (hfin _ _ _ _)
              | ok ss o3 =>
                simp only [caseM] at hn
                split at hn
                · exact ⟨vs ++ [v], st2, o3, by simp [hl],
                    BuiltSep.snoc hb (constructs_iff.mpr hc) (runs_iff.mpr hs), hn⟩
                · cases hn
  refine fun k => ⟨(key (k + 1)).2 k (Nat.lt_succ_self _), ?_⟩
  obtain ⟨vs, st1, o1, hl, hb, _⟩ := (key k).1
  exact ⟨vs, st1, o1, hl, hb⟩

theorem conSepCL_waits {skip : Bool} {st : σ} {o : Nat} (hfin : ∀ c vs st o, fin c vs st o ≠ none)
    (h : conSepCL (conL G H pol d) (matL G pol d s) q skip fin false 0 [] st o = none) :
    (∃ vs st1 o1, BuiltSep G H pol d q s vs st o st1 o1 ∧
      (conL G H pol d q st1 o1 = none ∨
        ∃ v st2 o2, Constructs G H pol d q st1 o1 (.ok v st2 o2) ∧ (matL G pol d s o2 = none ∨
          skip = true ∧ ∃ e o3, Runs G pol d s o2 (.err e o3) ∧ (conL G H pol d q st2 o3 = none ∨
            ∃ v' st3 o4, Constructs G H pol d q st2 o3 (.ok v' st3 o4) ∧ matL G pol d s o4 = none)))) ∨
    ∀ k, ∃ vs st1 o1, vs.length = k ∧ BuiltSep G H pol d q s vs st o st1 o1 := by
  refine Classical.or_iff_not_imp_left.mpr fun hno => ?_
  have key : ∀ k, ∃ vs st1 o1, vs.length = k ∧ BuiltSep G H pol d q s vs st o st1 o1 ∧
      conSepCL (conL G H pol d) (matL G pol d s) q skip fin false k vs st1 o1 = none := by
    intro k
    induction k with
    | zero => exact ⟨[], st, o, rfl, .nil _ _, h⟩
    | succ k ih =>
      obtain ⟨vs, st1, o1, hl, hb, hn⟩ := ih
      rw [conSepCL_eq] at hn
      cases hc : conL G H pol d q st1 o1 with
      | none => exact absurd ⟨vs, st1, o1, hb, .inl hc⟩ hno
      | some r =>
        rw [hc] at hn
        cases r with
        | panic => cases hn
        | err e st2 o2 => exact absurd hn (hfin _ _ _ _)
        | ok v st2 o2 =>
          simp only [caseC] at hn
          cases hs : matL G pol d s o2 with
          | none => exact absurd ⟨vs, st1, o1, hb, .inr ⟨v, st2, o2, constructs_iff.mpr hc, .inl hs⟩⟩ hno
          | some r =>
            rw [hs] at hn
            cases r with
            | panic => cases hn
            | ok ss o3 =>
              simp only [caseM, Bool.false_eq_true, if_false] at hn
              exact ⟨vs ++ [v], st2, o3, by simp [hl],
                BuiltSep.snoc hb (constructs_iff.mpr hc) (runs_iff.mpr hs), hn⟩
            | err e o3 =>
              simp only [caseM, Bool.false_eq_true, if_false] at hn
              cases hk : skip with
              | false => rw [hk] at hn; exact absurd hn (hfin _ _ _ _)
              | true =>
                rw [hk, if_pos rfl, conSepCL_eq] at hn
                have out : ∀ {P : Prop}, (conL G H pol d q st2 o3 = none ∨
                    ∃ v' st3 o4, Constructs G H pol d q st2 o3 (.ok v' st3 o4) ∧ matL G pol d s o4 = none) → P :=
                  fun hx => absurd ⟨vs, st1, o1, hb, .inr ⟨v, st2, o2, constructs_iff.mpr hc,
                    .inr ⟨hk, e, o3, runs_iff.mpr hs, hx⟩⟩⟩ hno
                cases hc' : conL G H pol d q st2 o3 with
                | none => exact out (.inl hc')
                | some r =>
                  rw [hc'] at hn
                  cases r with
                  | panic => cases hn
                  | err e st3 o4 => exact absurd hn (hfin _ _ _ _)
                  | ok v' st3 o4 =>
                    simp only [caseC] at hn
                    cases hs' : matL G pol d s o4 with
                    | none => exact out (.inr ⟨v', st3, o4, constructs_iff.mpr hc', hs'⟩)
                    | some r =>
                      rw [hs'] at hn
                      cases r with
                      | panic => cases hn
                      | ok ss o5 => exact absurd hn (hfin _ _ _ _)
                      | err e o5 => exact absurd hn (hfin _ _ _ _)
  refine fun k => ?_
  obtain ⟨vs, st1, o1, hl, hb, _⟩ := key k
  exact ⟨vs, st1, o1, hl, hb⟩

end Loops

theorem endless_none {p : Pat ι β} {st : σ} {o : Nat} (h : Endless G H pol d p st o) :
    conL G H pol d p st o = none := by
  cases h with
  | rounds hp hk =>
    cases hp
    · rw [conL_rep]; exact conRepL_endless (fun k => more_iff.mpr (hk k).1) (fun _ => rfl) fun k => (hk k).2
    · rename_i n; exact absurd (hk (n + 1)).1 (by omega)
    · rw [conL_collect]; exact conRepL_endless (fun _ => rfl) (fun _ => rfl) fun k => (hk k).2
  | list hp hk =>
    cases hp
    · rw [conL_sep]; exact conSepL_endless (fun _ => rfl) (fun _ => rfl) fun k => (hk k).2
    · rename_i n; exact absurd (hk (n + 1)).1 (by omega)
    · rw [conL_sepCollect]; exact conSepCL_endless fun k => (hk k).2

/-! ## What a hanging construction waits for -/

theorem choice_waits {e : Error} {o : Nat} {items : List (Pat ι β × Option (Val β))} {st : σ}
    (h : ∀ before it after st1, items = before ++ it :: after → FailsAll G H pol d o before st st1 →
      conL G H pol d it.1 st1 o ≠ none) : conChoice (conL G H pol d) e o items st o ≠ none := by
  induction items generalizing st with
  | nil => simp [conChoice]
  | cons it items ih =>
    simp only [conChoice]
    refine caseC_ne (h [] it items st rfl .nil) (fun _ _ _ _ => by simp) (fun e' st1 o' he => ?_)
    exact ih fun before it' after st2 hi hb =>
      h (it :: before) it' after st2 (by rw [hi]; rfl) (.cons (constructs_iff.mpr he) hb)

theorem ltm_waits {e : Error} {o : Nat} {items : List (Pat ι β × Option (Val β))} {st : σ}
    (h : ∀ before it after st1, items = before ++ it :: after → TriesAll G H pol d o before st st1 →
      conL G H pol d it.1 st1 o ≠ none) (best : Option (Val β)) (stop o' : Nat) :
    conLtm (conL G H pol d) e o items best stop st o' ≠ none := by
  induction items generalizing st best stop o' with
  | nil => cases best <;> simp [conLtm]
  | cons it items ih =>
    simp only [conLtm]
    refine caseC_ne (h [] it items st rfl .nil) (fun v st1 o1 he => ?_) (fun e' st1 o1 he => ?_)
    · have := fun b s o' => ih (st := st1) (fun before it' after st2 hi hb =>
        h (it :: before) it' after st2 (by rw [hi]; rfl) (.ok (constructs_iff.mpr he) hb)) b s o'
      split
      · exact this _ _ _
      · exact this _ _ _
    · exact ih (fun before it' after st2 hi hb =>
        h (it :: before) it' after st2 (by rw [hi]; rfl) (.err (constructs_iff.mpr he) hb)) _ _ _

/-- Building returns if everything it waits for returns and it is not an endless loop. -/
theorem returns {p : Pat ι β} {st : σ} {o : Nat}
    (hb : ∀ q st' o', Awaits G H pol d p st o (.build q st' o') → conL G H pol d q st' o' ≠ none)
    (hm : ∀ q o', Awaits G H pol d p st o (.mat q o') → matL G pol d q o' ≠ none)
    (he : ¬ Endless G H pol d p st o) : conL G H pol d p st o ≠ none := by
  have C : ∀ {q : Pat ι β} {st : σ} {o : Nat} {r : CRes σ (Val β)},
    conL G H pol d q st o = some r → Constructs G H pol d q st o r := constructs_iff.mpr
  have R : ∀ {q : Pat ι β} {o : Nat} {r : Res Span}, matL G pol d q o = some r → Runs G pol d q o r := runs_iff.mpr
  have leaf : Leaf p → conL G H pol d p st o ≠ none := fun hl => by
    rw [conL_leaf (hp := hl)]; exact invokeK_ne (hm _ _ (.leaf hl))
  cases p
  case pat q => rw [conL_pat]; exact invokeK_ne (hm _ _ .pat)
  case thn a b =>
    rw [conL_thn]
    exact caseC_ne (hb _ _ _ .thn) (fun v st1 o1 h => caseC_ne (hb _ _ _ (.thn2 (C h)))
      (fun _ _ _ _ => by simp) (fun _ _ _ _ => by simp)) (fun _ _ _ _ => by simp)
  case ifThen a t b =>
    rw [conL_ifThen]
    exact caseC_ne (hb _ _ _ .ifThen) (fun v st1 o1 h => caseM_ne (hm _ _ (.ifThen2 (C h)))
      (fun s o2 h' => caseC_ne (hb _ _ _ (.ifThen3 (C h) (R h')))
        (fun _ _ _ _ => by simp) (fun _ _ _ _ => by simp)) (fun _ _ _ => by simp)) (fun _ _ _ _ => by simp)
  case sepOnce a t b =>
    rw [conL_sepOnce]
    exact caseC_ne (hb _ _ _ .sepOnce) (fun v st1 o1 h => caseM_ne (hm _ _ (.sepOnce2 (C h)))
      (fun s o2 h' => caseC_ne (hb _ _ _ (.sepOnce3 (C h) (R h')))
        (fun _ _ _ _ => by simp) (fun _ _ _ _ => by simp)) (fun _ _ _ => by simp)) (fun _ _ _ _ => by simp)
  case pre a b =>
    rw [conL_pre]
    exact caseM_ne (hm _ _ .pre) (fun s o1 h => caseC_ne (hb _ _ _ (.pre2 (R h)))
      (fun _ _ _ _ => by simp) (fun _ _ _ _ => by simp)) (fun _ _ _ => by simp)
  case suf a b =>
    rw [conL_suf]
    exact caseC_ne (hb _ _ _ .suf) (fun v st1 o1 h => caseM_ne (hm _ _ (.suf2 (C h)))
      (fun _ _ _ => by simp) (fun _ _ _ => by simp)) (fun _ _ _ _ => by simp)
  case enclose a b c =>
    rw [conL_enclose]
    exact caseM_ne (hm _ _ .enclose) (fun s o1 h => caseC_ne (hb _ _ _ (.enclose2 (R h)))
      (fun v st1 o2 h' => caseM_ne (hm _ _ (.enclose3 (R h) (C h')))
        (fun _ _ _ => by simp) (fun _ _ _ => by simp)) (fun _ _ _ _ => by simp)) (fun _ _ _ => by simp)
  case or a b =>
    rw [conL_or]
    exact caseC_ne (hb _ _ _ .or) (fun _ _ _ _ => by simp) (fun e st1 o1 h =>
      caseC_ne (hb _ _ _ (.or2 (C h))) (fun _ _ _ _ => by simp) (fun _ _ _ _ => by simp))
  case longest a b =>
    rw [conL_longest]
    refine caseC_ne (hb _ _ _ .longest) (fun _ st1 _ h => ?_) (fun _ st1 _ h => ?_)
    · exact caseC_ne (hb _ _ _ (.longest2 (C h))) (fun _ _ _ _ => by split <;> simp) (fun _ _ _ _ => by simp)
    · exact caseC_ne (hb _ _ _ (.longest3 (C h))) (fun _ _ _ _ => by simp) (fun _ _ _ _ => by simp)
  case opt q =>
    rw [conL_opt]
    exact caseC_ne (hb _ _ _ .opt) (fun _ _ _ _ => by simp) (fun _ _ _ _ => by simp)
  case choice e items =>
    rw [conL_choice]
    exact choice_waits fun before it after st1 hi hf => hb _ _ _ (by rw [hi]; exact .choice hf)
  case ltm e items =>
    rw [conL_ltm]
    exact ltm_waits (fun before it after st1 hi hf => hb _ _ _ (by rw [hi]; exact .ltm hf)) _ _ _
  case rep q r =>
    rw [conL_rep]
    intro hn
    rcases conRepL_waits (conFinish_ne _ _ _ _) hn with ⟨vs, st1, o1, ha, hj, hw⟩ | hall
    · exact hb _ _ _ (.round (.rep q r) ha fun j h => more_iff.mp (hj j h)) hw
    · exact he (.rounds (.rep q r) fun k => ⟨more_iff.mp (hall k).1, (hall k).2⟩)
  case rep2 q m n =>
    rw [conL_rep2]
    intro hn
    rcases conRepL_waits (conFinish_ne _ _ _ _) hn with ⟨vs, st1, o1, ha, hj, hw⟩ | hall
    · exact hb _ _ _ (.round (.rep2 q m n) ha fun j h => of_decide_eq_true (hj j h)) hw
    · exact he (.rounds (.rep2 q m n) fun k => ⟨of_decide_eq_true (hall k).1, (hall k).2⟩)
  case collect q m =>
    rw [conL_collect]
    intro hn
    rcases conRepL_waits (conFinish_ne _ _ _ _) hn with ⟨vs, st1, o1, ha, hj, hw⟩ | hall
    · exact hb _ _ _ (.round (.collect q m) ha fun j h => trivial) hw
    · exact he (.rounds (.collect q m) fun k => ⟨trivial, (hall k).2⟩)
  case sep q s skip m =>
    rw [conL_sep]
    intro hn
    rcases conSepL_waits (conFinish_ne _ _ _ _) hn with ⟨vs, st1, o1, ha, hj, hw | ⟨v, st2, o2, hc, hw⟩⟩ | hall
    · exact hb _ _ _ (.element (.sep q s skip m) ha fun j h => trivial) hw
    · exact hm _ _ (.separator (.sep q s skip m) ha (fun j h => trivial) hc) hw
    · exact he (.list (.sep q s skip m) fun k => ⟨trivial, (hall k).2⟩)
  case sep2 q s skip m n =>
    rw [conL_sep2]
    intro hn
    rcases conSepL_waits (conFinish_ne _ _ _ _) hn with ⟨vs, st1, o1, ha, hj, hw | ⟨v, st2, o2, hc, hw⟩⟩ | hall
    · exact hb _ _ _ (.element (.sep2 q s skip m n) ha fun j h => of_decide_eq_true (hj j h)) hw
    · exact hm _ _ (.separator (.sep2 q s skip m n) ha (fun j h => of_decide_eq_true (hj j h)) hc) hw
    · exact he (.list (.sep2 q s skip m n) fun k => ⟨of_decide_eq_true (hall k).1, (hall k).2⟩)
  case sepCollect q s skip m =>
    rw [conL_sepCollect]
    intro hn
    rcases conSepCL_waits (conFinish_ne _ _ _ _) hn with ⟨vs, st1, o1, ha, hw | ⟨v, st2, o2, hc, hw | ⟨rfl, e, o3, hr, hw | ⟨v', st3, o4, hc', hw⟩⟩⟩⟩ | hall
    · exact hb _ _ _ (.element (.sepCollect q s skip m) ha fun j h => trivial) hw
    · exact hm _ _ (.separator (.sepCollect q s skip m) ha (fun j h => trivial) hc) hw
    · exact hb _ _ _ (.again ha hc hr) hw
    · exact hm _ _ (.again2 ha hc hr hc') hw
    · exact he (.list (.sepCollect q s skip m) fun k => ⟨trivial, hall k⟩)
  case branch t a b =>
    rw [conL_branch]
    cases ht : t d o with
    | ok c =>
      exact caseC_ne (hb _ _ _ (.branch ht)) (fun _ _ _ _ => by simp) (fun _ _ _ _ => by simp)
    | err e => simp [caseT]
    | panic => simp [caseT]
  case map q f =>
    rw [conL_map]
    exact caseC_ne (hb _ _ _ .map) (fun _ _ _ _ => caseT_ne (fun _ => by simp) (fun _ => by simp))
      (fun _ _ _ _ => by simp)
  case dthen q f =>
    rw [conL_dthen]
    refine caseC_ne (hb _ _ _ .dthen) (fun v st1 o1 h => ?_) (fun _ _ _ _ => by simp)
    exact caseM_ne (by simp) (fun p' o2 h' => caseC_ne (hb _ _ _ (.dthen2 (C h) (by simpa using h')))
      (fun _ _ _ _ => by simp) (fun _ _ _ _ => by simp)) (fun _ _ _ => by simp)
  case cell i =>
    rw [conL_cell]
    cases hG : G i with
    | none => simp
    | some q => exact hb _ _ _ (.cell hG)
  all_goals exact leaf trivial

theorem steps_snoc {p q r : Pat ι β} {st st1 st2 : σ} {o o1 o2 : Nat} (h : Steps G H pol d p st o q st1 o1)
    (h' : Awaits G H pol d q st1 o1 (.build r st2 o2)) : Steps G H pol d p st o r st2 o2 := by
  induction h with
  | here => exact .next h' .here
  | next h1 _ ih => exact .next h1 (ih h')

theorem steps_hangs {p q : Pat ι β} {st st1 : σ} {o o1 : Nat} (ha : Steps G H pol d p st o q st1 o1)
    (h : conL G H pol d q st1 o1 = none) : conL G H pol d p st o = none := by
  induction ha with
  | here => exact h
  | next h1 _ ih =>
    refine none_of_con fun n => ?_
    cases n with
    | zero => rfl
    | succ n => exact awaits_none h1 (con_of_none (ih h) n)

theorem stuck_none {p : Pat ι β} {st : σ} {o : Nat} (h : Stuck G H pol d p st o) :
    conL G H pol d p st o = none := by
  rcases h with h | ⟨q, o', ha, hs⟩
  · exact endless_none h
  · refine none_of_con fun n => ?_
    cases n with
    | zero => rfl
    | succ n => exact awaits_none ha (mat_of_none hs)

end HangBuild

variable {ι β σ : Type} [Item ι] {G : Rules ι β} {H : Handler ι β σ} {pol : Option (Pat ι β)}
  {d : List ι}

open HangBuild in
/-- **C35, the only ways building hangs.** For every pattern, handler and context: building a
value never returns if and only if it waits for building another value, which waits for
building another one and so on without end, or it comes in finitely many such steps to a
loop all of whose rounds succeed for ever, or to a match that never returns. -/
theorem C35_building_hangs_iff {p : Pat ι β} {st : σ} {o : Nat} :
    (∀ r, ¬ Constructs G H pol d p st o r) ↔
      (∃ (ps : Nat → Pat ι β) (sts : Nat → σ) (os : Nat → Nat), ps 0 = p ∧ sts 0 = st ∧ os 0 = o ∧
        ∀ n, Awaits G H pol d (ps n) (sts n) (os n) (.build (ps (n + 1)) (sts (n + 1)) (os (n + 1)))) ∨
      ∃ q st' o', Steps G H pol d p st o q st' o' ∧ Stuck G H pol d q st' o' := by
  rw [never_iff]
  constructor
  · intro hn
    refine Classical.or_iff_not_imp_right.mpr fun hno => ?_
    -- the building calls without an answer that `p` comes to
    let S := { c : Pat ι β × σ × Nat //
      Steps G H pol d p st o c.1 c.2.1 c.2.2 ∧ conL G H pol d c.1 c.2.1 c.2.2 = none }
    have step : ∀ c : S, ∃ c' : S, Awaits G H pol d c.1.1 c.1.2.1 c.1.2.2 (.build c'.1.1 c'.1.2.1 c'.1.2.2) := by
      rintro ⟨⟨q, st', o'⟩, ha, hq⟩
      refine Classical.byContradiction fun hc => ?_
      exact returns (fun r st2 o2 hw hm => hc ⟨⟨(r, st2, o2), steps_snoc ha hw, hm⟩, hw⟩)
        (fun r o2 hw hm => hno ⟨q, st', o', ha, .inr ⟨r, o2, hw, mat_never_iff.mpr hm⟩⟩)
        (fun he => hno ⟨q, st', o', ha, .inl he⟩) hq
    let f : Nat → S := fun n => Nat.rec ⟨(p, st, o), .here, hn⟩ (fun _ c => Classical.choose (step c)) n
    exact ⟨fun n => (f n).1.1, fun n => (f n).1.2.1, fun n => (f n).1.2.2, rfl, rfl, rfl,
      fun n => Classical.choose_spec (step (f n))⟩
  · rintro (⟨ps, sts, os, rfl, rfl, rfl, h⟩ | ⟨q, st', o', ha, he⟩)
    · have : ∀ n k, con G H n pol d (ps k) (sts k) (os k) = none := by
        intro n
        induction n with
        | zero => intro k; rfl
        | succ n ih => exact fun k => awaits_none (h k) (ih (k + 1))
      exact none_of_con fun n => this n 0
    · exact steps_hangs ha (stuck_none he)

/-! All three are met. -/
section

open HangBuild

private def lenOf : Handler Char Nat Unit := fun _ _ s st => (.ok s.len, st)

private theorem emptiesBuilt (k o : Nat) : ∃ vs, vs.length = k ∧
    Built (G0 (β := Nat)) lenOf none "ab".toList .empty vs () o () o := by
  induction k with
  | zero => exact ⟨[], rfl, .nil _ _⟩
  | succ k ih =>
    obtain ⟨vs, hl, hb⟩ := ih
    exact ⟨.base 0 :: vs, by simp [hl], .cons (st1 := ()) (o1 := o) ⟨1, rfl⟩ hb⟩

/-- An endless loop behind a sequence. -/
example : ∀ r, ¬ Constructs (G0 (β := Nat)) lenOf none "ab".toList
    (.thn (.lit ['a']) (.collect .empty 0)) () 0 r := by
  refine C35_building_hangs_iff.mpr (.inr ⟨.collect .empty 0, (), 1,
    .next (.thn2 (v := .base 1) ⟨2, rfl⟩) .here, .inl (.rounds (.collect _ _) fun k => ⟨trivial, ?_⟩)⟩)
  obtain ⟨vs, hl, hb⟩ := emptiesBuilt k 1
  exact ⟨vs, (), 1, hl, hb⟩

/-- A delimiter whose match never returns. -/
example : ∀ r, ¬ Constructs (G0 (β := Nat)) lenOf none "ab".toList
    (.suf (.lit ['a']) (.pat (.collect .empty 0))) () 0 r := by
  refine C35_building_hangs_iff.mpr (.inr ⟨_, (), 0, .here,
    .inr ⟨.pat (.collect .empty 0), 1, .suf2 (v := .base 1) (st1 := ()) ⟨2, rfl⟩, ?_⟩⟩)
  rw [mat_never_iff, matL_none, ← Hang.never_iff]
  refine (C35_hangs_iff (All.intro (by trivial) ?_)).mpr (.inr ⟨.collect .empty 0, 1,
    .next (.call .pat rfl) .here, .inl <| .rounds (.collect _ _) fun k => ⟨trivial, ⟨1, 0⟩, 1, ?_⟩⟩)
  · rintro q rfl
    exact All.intro (by trivial) (by rintro q rfl; exact All.intro (by trivial) (by simp [Child]))
  · induction k with
    | zero => exact .zero _ _
    | succ k ih => exact .succ ⟨1, rfl⟩ (hull_iff.mpr (by simp [Span.addAssign])) ih

/-- A rule that begins with itself waits for itself. -/
example : let G : Rules Char Nat := fun _ => some (.thn (.cell 0) (.lit ['+']))
    ∀ r, ¬ Constructs G lenOf none "n+n".toList (.cell 0) () 0 r := by
  refine C35_building_hangs_iff.mpr (.inl ⟨fun n => if n % 2 = 0 then .cell 0 else .thn (.cell 0) (.lit ['+']),
    fun _ => (), fun _ => 0, rfl, rfl, rfl, fun n => ?_⟩)
  by_cases h : n % 2 = 0
  · have h' : ¬ (n + 1) % 2 = 0 := by omega
    simp only [if_pos h, if_neg h']; exact .cell rfl
  · have h' : (n + 1) % 2 = 0 := by omega
    simp only [if_neg h, if_pos h']; exact .thn

end

end Neure
