import Verif.PropsUtf8
import Verif.PropsFind

/-!
# C102: searching a string and searching its bytes

`find`, `find_all` and `match_seq` move on byte by byte.  In a string they try, and fail, at
the places inside a character; in the bytes of the same string such a place is as good as
any other.  For patterns that begin with something definite (`Opens … Starts`) both find
the same.
-/

set_option linter.unusedSectionVars false
set_option linter.unusedSimpArgs false

namespace Neure

open Demo

namespace FindUtf8

/-- The pattern begins with a part in `F`: what comes first must match a part in `F`. -/
inductive Opens {ι β : Type} (G : Rules ι β) (F : Pat ι β → Prop) : Pat ι β → Prop where
  | first {p} : F p → Opens G F p
  | thn {a b} : Opens G F a → Opens G F (.thn a b)
  | pre {a b} : Opens G F a → Opens G F (.pre a b)
  | suf {a b} : Opens G F a → Opens G F (.suf a b)
  | ifThen {a t b} : Opens G F a → Opens G F (.ifThen a t b)
  | enclose {a t b} : Opens G F a → Opens G F (.enclose a t b)
  | sepOnce {a t b} : Opens G F a → Opens G F (.sepOnce a t b)
  | or {a b} : Opens G F a → Opens G F b → Opens G F (.or a b)
  | longest {a b} : Opens G F a → Opens G F b → Opens G F (.longest a b)
  | choice {e items} : (∀ it ∈ items, Opens G F it.1) → Opens G F (.choice e items)
  | rep {p r} : r.contains 0 = false → Opens G F p → Opens G F (.rep p r)
  | collect {p m} : 0 < m → Opens G F p → Opens G F (.collect p m)
  | sep {p s skip m} : 0 < m → Opens G F p → Opens G F (.sep p s skip m)
  | sepCollect {p s skip m} : 0 < m → Opens G F p → Opens G F (.sepCollect p s skip m)
  | map {p f} : Opens G F p → Opens G F (.map p f)
  | pat {p} : Opens G F p → Opens G F (.pat p)
  | cell {i p} : G i = some p → Opens G F p → Opens G F (.cell i)

/-- The unit accepts ASCII characters only. -/
def OnlyAscii (u : Neu Char) : Prop := ∀ c : Char, 128 ≤ c.toNat → u.isMatch c = false

/-- A first part of a string pattern: a literal that is not empty, or at least one ASCII
character. -/
def Starts {β : Type} : Pat Char β → Prop
  | .lit l => l ≠ []
  | .once u _ => OnlyAscii u
  | .many1 u _ => OnlyAscii u
  | .between m _ u _ => 0 < m ∧ OnlyAscii u
  | .times r u _ => r.contains 0 = false ∧ OnlyAscii u
  | .thenU u _ _ => OnlyAscii u
  | _ => False

/-- The same for the bytes: no first part can begin with a byte inside a character. -/
def StartsB {β : Type} : Pat UInt8 β → Prop
  | .lit l => ∃ b t, l = b :: t ∧ startsChar b = true
  | .once u _ => ∀ b, startsChar b = false → u.isMatch b = false
  | .many1 u _ => ∀ b, startsChar b = false → u.isMatch b = false
  | .between m _ u _ => 0 < m ∧ ∀ b, startsChar b = false → u.isMatch b = false
  | .times r u _ => r.contains 0 = false ∧ ∀ b, startsChar b = false → u.isMatch b = false
  | .thenU u _ _ => ∀ b, startsChar b = false → u.isMatch b = false
  | _ => False

section

variable {ι β : Type} [Item ι] {G : Rules ι β} {d : List ι}

theorem choice_fails {mt : Pat ι β → Nat → Option (Res Span)} {e : Error} {o : Nat}
    {items : List (Pat ι β × Option (Val β))} (h : ∀ it ∈ items, ∃ e, mt it.1 o = some (.err e o)) :
    choiceLoop mt e o items o = some (.err e o) := by
  induction items with
  | nil => rfl
  | cons it items ih =>
    obtain ⟨e1, h1⟩ := h it (by simp)
    simp only [choiceLoop, h1, caseR]
    exact ih fun it hit => h it (by simp [hit])

/-- If every part in `F` fails at `o`, so does every pattern that begins with one. -/
theorem opens_fail {F : Pat ι β → Prop} {o : Nat}
    (hF : ∀ p, F p → ∃ e, parseL G none d p o = some (.err e o)) {p : Pat ι β} (h : Opens G F p) :
    ∃ e, parseL G none d p o = some (.err e o) := by
  induction h with
  | first h => exact hF _ h
  | thn _ ih => obtain ⟨e, h⟩ := ih; exact ⟨e, by simp only [parseL_thn, seq2, matL_none, h, caseR]⟩
  | pre _ ih => obtain ⟨e, h⟩ := ih; exact ⟨e, by simp only [parseL_pre, seq2, matL_none, h, caseR]⟩
  | suf _ ih => obtain ⟨e, h⟩ := ih; exact ⟨e, by simp only [parseL_suf, seq2, matL_none, h, caseR]⟩
  | ifThen _ ih => obtain ⟨e, h⟩ := ih; exact ⟨e, by simp only [parseL_ifThen, matL_none, h, caseR]⟩
  | enclose _ ih => obtain ⟨e, h⟩ := ih; exact ⟨e, by simp only [parseL_enclose, matL_none, h, caseR]⟩
  | sepOnce _ ih => obtain ⟨e, h⟩ := ih; exact ⟨e, by simp only [parseL_sepOnce, matL_none, h, caseR]⟩
  | or _ _ ih1 ih2 =>
    obtain ⟨e, h⟩ := ih1
    obtain ⟨e', h'⟩ := ih2
    exact ⟨e', by simp only [parseL_or, matL_none, h, h', caseR]⟩
  | longest _ _ ih1 ih2 =>
    obtain ⟨e, h⟩ := ih1
    obtain ⟨e', h'⟩ := ih2
    exact ⟨e', by simp only [parseL_longest, matL_none, h, h', caseR]⟩
  | @choice e items _ ih => exact ⟨e, by rw [parseL_choice]; exact choice_fails ih⟩
  | rep hr _ ih =>
    obtain ⟨e, h⟩ := ih
    refine ⟨.repeat_, ?_⟩
    rw [parseL_rep, repL_eq]
    split <;> simp [matL_none, h, caseR, finish, hr]
  | collect hr _ ih =>
    obtain ⟨e, h⟩ := ih
    refine ⟨.collect, ?_⟩
    rw [parseL_collect, repL_eq]
    simp [matL_none, h, caseR, finish]; omega
  | sep hr _ ih =>
    obtain ⟨e, h⟩ := ih
    refine ⟨.separate, ?_⟩
    rw [parseL_sep, sepL_eq]
    simp [matL_none, h, caseR, finish]; omega
  | sepCollect hr _ ih =>
    obtain ⟨e, h⟩ := ih
    refine ⟨.sepCollect, ?_⟩
    rw [parseL_sepCollect, sepL_eq]
    simp [matL_none, h, caseR, finish]; omega
  | map _ ih => simpa only [parseL_map, matL_none] using ih
  | pat _ ih => simpa only [parseL_pat, matL_none] using ih
  | cell hG _ ih =>
    rw [parseL_cell, hG]
    exact ih

end

variable {β β' : Type} {rv : Val β → Val β' → Prop} {G : Rules Char β} {G' : Rules UInt8 β'} {d : List Char}

/-- Inside a character of a string nothing definite begins. -/
theorem str_fails {o : Nat} (hlt : o < blen d) (hv : ¬ Valid d o) (p : Pat Char β) (h : Starts p) :
    ∃ e, parseL G none d p o = some (.err e o) := by
  have hd : dropB d o = none := by
    cases hd : dropB d o with
    | none => rfl
    | some l =>
      obtain ⟨pre, h1, h2⟩ := dropB_eq_some.mp hd
      exact absurd ⟨pre, l, h1, h2⟩ hv
  have hle : ¬ blen d < o := by omega
  have ha : origAt d o = .err .outOfBound := by simp [origAt, hle, hd]
  have hp : peek d o = .err .outOfBound := by simp [peek, ha]
  cases p with
  | lit l =>
    rw [parseL_lit]
    unfold litParse remK
    rw [if_pos (by omega), ha]
    dsimp only
    split
    · exact ⟨_, rfl⟩
    · exact ⟨_, rfl⟩
  | once u c => exact ⟨.outOfBound, by rw [parseL_once]; simp only [onceParse, hp, caseO]⟩
  | many1 u c => exact ⟨.outOfBound, by rw [parseL_many1]; simp only [many1Parse, hp, caseO]⟩
  | between m n u c => exact ⟨.outOfBound, by rw [parseL_between]; simp only [betweenParse, hp, caseO]⟩
  | times r u c => exact ⟨.outOfBound, by rw [parseL_times]; simp only [timesParse, hp, caseO]⟩
  | thenU u v c => exact ⟨.outOfBound, by rw [parseL_thenU]; simp only [thenUParse, hp, caseO]⟩
  | _ => exact h.elim

/-- Inside a character of the bytes neither. -/
theorem bytes_fail {o : Nat} (hlt : o < blen d) (hv : ¬ Valid d o) (q : Pat UInt8 β') (h : StartsB q) :
    ∃ e, parseL G' none (utf8 d) q o = some (.err e o) := by
  obtain ⟨b, hb, hs⟩ : ∃ b, (utf8 d)[o]? = some b ∧ startsChar b = false := by
    have h1 : isCharBoundary (utf8 d) o = false := by
      cases h1 : isCharBoundary (utf8 d) o with
      | false => rfl
      | true => exact absurd ((boundary_iff d o).mp h1) hv
    unfold isCharBoundary at h1
    split at h1
    · cases h1
    · have hl : o < (utf8 d).length := by rw [utf8_length]; exact hlt
      rw [List.getElem?_eq_getElem hl] at h1 ⊢
      exact ⟨_, rfl, h1⟩
  obtain ⟨hl, hb⟩ := List.getElem?_eq_some_iff.mp hb
  have hsplit : utf8 d = (utf8 d).take o ++ b :: (utf8 d).drop (o + 1) := by
    rw [← hb, List.getElem_cons_drop, List.take_append_drop]
  have hlen : blen ((utf8 d).take o) = o := by rw [blen_bytes, List.length_take]; omega
  have hdr : dropB (utf8 d) o = some (b :: (utf8 d).drop (o + 1)) :=
    dropB_eq_some.mpr ⟨_, hsplit, hlen⟩
  have hle : o ≤ blen (utf8 d) := by rw [blen_bytes]; omega
  have ha : origAt (utf8 d) o = .ok (b :: (utf8 d).drop (o + 1)) := by
    have : ¬ blen (utf8 d) < o := by omega
    simp [origAt, this, hdr]
  have hp : ∃ it, peek (utf8 d) o = .ok ((0, b) :: it) := ⟨_, by simp only [peek, ha]; rfl⟩
  obtain ⟨it, hp⟩ := hp
  have hrem : ∀ k : Nat → Option (Res Span), remK (utf8 d) o k = k (blen (utf8 d) - o) :=
    fun k => if_pos hle
  have test : ∀ {u : Neu UInt8} {c : Cond UInt8 β'}, (∀ b, startsChar b = false → u.isMatch b = false) →
      testItem (matL G' none) (utf8 d) o u c (0, b) = some (.ok false) := by
    intro u c hu
    simp [testItem, hu b hs]
  have scans : ∀ {u : Neu UInt8} {c : Cond UInt8 β'} {more : Nat → Bool},
      (∀ b, startsChar b = false → u.isMatch b = false) →
      ∃ stop rest, scan (testItem (matL G' none) (utf8 d) o u c) more 0 none ((0, b) :: it) =
        some (.ok ⟨0, none, stop, rest⟩) := by
    intro u c more hu
    simp only [scan, test hu]
    split
    · exact ⟨_, _, rfl⟩
    · exact ⟨_, _, rfl⟩
  cases q with
  | lit l =>
    obtain ⟨x, t, rfl, hx⟩ := h
    rw [parseL_lit]
    unfold litParse
    rw [hrem, ha]
    split
    · have : ¬ ((x :: t).isPrefixOf (b :: (utf8 d).drop (o + 1)) = true) := by
        intro hpre
        rw [List.isPrefixOf_iff_prefix, List.cons_prefix_cons] at hpre
        rw [hpre.1, hs] at hx
        cases hx
      exact ⟨.literal, by simp only [caseO, if_neg this]⟩
    · exact ⟨_, rfl⟩
  | once u c => exact ⟨.once, by rw [parseL_once]; simp [onceParse, hp, caseO, hrem, test h]⟩
  | many1 u c =>
    obtain ⟨stop, rest, hsc⟩ := scans (c := c) (more := fun _ => true) h
    exact ⟨.many1, by rw [parseL_many1]; simp only [many1Parse, hp, caseO, hrem, hsc]⟩
  | between m n u c =>
    obtain ⟨stop, rest, hsc⟩ := scans (c := c) (more := fun cnt => decide (cnt < n)) h.2
    refine ⟨.between, ?_⟩
    rw [parseL_between]
    have : ¬ 0 ≥ m := by have := h.1; omega
    simp only [betweenParse, hp, caseO, hrem, hsc, if_neg this, ite_self]
  | times r u c =>
    obtain ⟨stop, rest, hsc⟩ := scans (c := c) (more := r.more) h.2
    refine ⟨.times, ?_⟩
    rw [parseL_times]
    simp [timesParse, hp, caseO, hrem, hsc, h.1]
  | thenU u v c =>
    refine ⟨.neureThen, ?_⟩
    rw [parseL_thenU]
    simp only [thenUParse, hp, caseO, hrem]
    split
    · cases it with
      | nil => rfl
      | cons snd it => simp [test h]
    · rfl
  | _ => exact h.elim

theorem high {b : UInt8} (h : startsChar b = false) : 128 ≤ b.toNat := by
  simp [startsChar, UInt8.lt_iff_toNat_lt] at h
  have := h.1
  simpa [UInt8.le_iff_toNat_le] using this

theorem unit_high {k : Bool} {u : Neu Char} {v : Neu UInt8} (h : UnitSim k u v) (hu : OnlyAscii u) :
    ∀ b, startsChar b = false → v.isMatch b = false := by
  intro b hb
  rw [h.high b (high hb), ← h.wide 'é' (by decide)]
  exact hu 'é' (by decide)

theorem starts_sim {p : Pat Char β} {q : Pat UInt8 β'} (h : PatSim rv p q) (hs : Starts p) : StartsB q := by
  cases h <;> try exact hs.elim
  case lit l =>
    cases l with
    | nil => exact absurd rfl hs
    | cons c l =>
      obtain ⟨b, t, he, hb, -⟩ := encodeChar_shape c
      exact ⟨b, t ++ utf8 l, by rw [utf8_cons, he]; rfl, hb⟩
  case once hu _ => exact unit_high hu hs
  case many1 hu _ => exact unit_high hu hs
  case many1Wide hu => exact unit_high hu hs
  case between hu _ => exact ⟨hs.1, unit_high hu hs.2⟩
  case times hu _ => exact ⟨hs.1, unit_high hu hs.2⟩
  case thenU hu _ _ => exact unit_high hu hs

theorem alt_mem {l : List (Pat Char β × Option (Val β))} {m : List (Pat UInt8 β' × Option (Val β'))}
    (h : AltSim rv l m) : ∀ it' ∈ m, ∃ it ∈ l, PatSim rv it.1 it'.1 := by
  intro it' hm
  induction m generalizing l with
  | nil => cases hm
  | cons x m ih =>
    cases h with
    | cons h1 _ h2 =>
      rcases List.mem_cons.mp hm with rfl | hm
      · exact ⟨_, List.mem_cons_self, h1⟩
      · obtain ⟨it, h3, h4⟩ := ih h2 hm
        exact ⟨it, List.mem_cons_of_mem _ h3, h4⟩

theorem opens_sim (hG : RulesSim rv G G') {p : Pat Char β} (ho : Opens G Starts p) :
    ∀ {q : Pat UInt8 β'}, PatSim rv p q → Opens G' StartsB q := by
  induction ho with
  | first h => exact fun hs => .first (starts_sim hs h)
  | thn _ ih => intro q hs; cases hs with | thn h1 _ => exact .thn (ih h1)
  | pre _ ih => intro q hs; cases hs with | pre h1 _ => exact .pre (ih h1)
  | suf _ ih => intro q hs; cases hs with | suf h1 _ => exact .suf (ih h1)
  | ifThen _ ih => intro q hs; cases hs with | ifThen h1 _ _ => exact .ifThen (ih h1)
  | enclose _ ih => intro q hs; cases hs with | enclose h1 _ _ => exact .enclose (ih h1)
  | sepOnce _ ih => intro q hs; cases hs with | sepOnce h1 _ _ => exact .sepOnce (ih h1)
  | or _ _ ih1 ih2 => intro q hs; cases hs with | or h1 h2 => exact .or (ih1 h1) (ih2 h2)
  | longest _ _ ih1 ih2 => intro q hs; cases hs with | longest h1 h2 => exact .longest (ih1 h1) (ih2 h2)
  | choice _ ih =>
    intro q hs
    cases hs with
    | choice e h1 =>
      refine .choice fun it' hm => ?_
      obtain ⟨it, h2, h3⟩ := alt_mem h1 it' hm
      exact ih it h2 h3
  | rep hr _ ih => intro q hs; cases hs with | rep r h1 => exact .rep hr (ih h1)
  | collect hr _ ih => intro q hs; cases hs with | collect m h1 => exact .collect hr (ih h1)
  | sep hr _ ih => intro q hs; cases hs with | sep skip m h1 _ => exact .sep hr (ih h1)
  | sepCollect hr _ ih => intro q hs; cases hs with | sepCollect skip m h1 _ => exact .sepCollect hr (ih h1)
  | map _ ih => intro q hs; cases hs with | map h1 _ => exact .map (ih h1)
  | pat _ ih => intro q hs; cases hs with | pat h1 => exact .pat (ih h1)
  | @cell i p hi _ ih =>
    intro q hs
    cases hs with
    | cell _ =>
      have := hG i
      rw [hi] at this
      cases hi' : G' i with
      | none => rw [hi'] at this; exact this.elim
      | some q => rw [hi'] at this; exact .cell hi' (ih this)

/-- A search on two texts whose tries give the same, or fail on both sides without moving,
gives the same: one direction. -/
theorem loop_same {α : Type} {mtA mtB : Nat → Nat → Option (Res Span)} {len : Nat} {func : Processor}
    {h : Span → Out α} (hf : ∀ e e' o, func (.error e) o = func (.error e') o)
    (hA : ∀ o, Mono fun n => mtA n o) (hB : ∀ o, Mono fun n => mtB n o)
    (hs : ∀ o, o < len → (∀ r, (∃ n, mtA n o = some r) → ∃ n, mtB n o = some r) ∨
      ((∃ n e, mtA n o = some (.err e o)) ∧ ∃ n e, mtB n o = some (.err e o)))
    {N fuel o : Nat} {r : Res (Option α)} (hr : findLoop (mtA N) len func h fuel o = some r) :
    ∃ n, findLoop (mtB n) len func h n o = some r := by
  induction fuel generalizing o with
  | zero => cases hr
  | succ fuel ih =>
    rw [findLoop_iff hB]
    simp only [findLoop] at hr
    split at hr
    · next hlt =>
      rw [if_pos hlt]
      have body : ∀ {ret k}, findBody func h (findLoop (mtA N) len func h fuel) ret k = some r →
          BodyGives func h (fun o r => ∃ n, findLoop (mtB n) len func h n o = some r) ret k r := by
        intro ret k hb
        unfold findBody at hb
        unfold BodyGives
        rcases hfr : func ret k with ⟨_ | s, o2⟩
        · rw [hfr] at hb
          exact ih hb
        · rw [hfr] at hb
          dsimp only at hb ⊢
          cases hh : h s with
          | ok a => rw [hh] at hb; exact (Option.some.inj hb).symm
          | err e => rw [hh] at hb; exact ih hb
          | panic => rw [hh] at hb; exact (Option.some.inj hb).symm
      cases hv : mtA N o with
      | none => rw [hv] at hr; cases hr
      | some v =>
        rw [hv] at hr
        rcases hs o hlt with same | ⟨⟨n, e, he⟩, n', e', he'⟩
        · refine ⟨v, same v ⟨N, hv⟩, ?_⟩
          cases v with
          | ok s k => exact body hr
          | err e k => exact body hr
          | panic => exact (Option.some.inj hr).symm
        · have : v = .err e o := by
            rcases Nat.le_total N n with hle | hle
            · exact Option.some.inj ((hA o N n hle _ hv).symm.trans he)
            · exact (Option.some.inj ((hA o n N hle _ he).symm.trans hv)).symm
          subst this
          refine ⟨.err e' o, ⟨n', he'⟩, ?_⟩
          have := body (ret := .error e) hr
          unfold BodyGives at this ⊢
          dsimp only
          rwa [hf e' e]
    · next hlt =>
      rw [if_neg hlt]
      exact (Option.some.inj hr).symm

/-- The same for draining. -/
theorem drain_same {α : Type} {nxA nxB : Nat → Nat → Option (Res (Option α))}
    (hB : ∀ o, Mono fun n => nxB n o)
    (hs : ∀ N o r, nxA N o = some r → ∃ n, nxB n o = some r)
    {N fuel o : Nat} {r : Res (List α)} (hr : drain (nxA N) fuel o = some r) :
    ∃ n, drain (nxB n) n o = some r := by
  have le : ∀ N M fuel fuel' o r, N ≤ M → fuel ≤ fuel' → drain (nxB N) fuel o = some r →
      drain (nxB M) fuel' o = some r := by
    intro N M fuel
    induction fuel with
    | zero => intro fuel' o r _ _ h; cases h
    | succ fuel ih =>
      intro fuel' o r hNM hf h
      obtain ⟨f2, rfl⟩ : ∃ f2, fuel' = f2 + 1 := ⟨fuel' - 1, by omega⟩
      simp only [drain] at h ⊢
      cases hv : nxB N o with
      | none => rw [hv] at h; cases h
      | some v =>
        rw [hv] at h
        have hM : nxB M o = some v := hB o N M hNM _ hv
        rw [hM]
        cases v with
        | ok a o' =>
          cases a with
          | none => exact h
          | some a =>
            simp only [caseR] at h ⊢
            cases hd : drain (nxB N) fuel o' with
            | none => rw [hd] at h; cases h
            | some w => rw [hd] at h; rw [ih f2 o' w hNM (by omega) hd]; exact h
        | err e o' => exact h
        | panic => exact h
  induction fuel generalizing o r with
  | zero => cases hr
  | succ fuel ih =>
    simp only [drain] at hr
    cases hv : nxA N o with
    | none => rw [hv] at hr; cases hr
    | some v =>
      rw [hv] at hr
      obtain ⟨n, hn⟩ := hs N o v hv
      cases v with
      | ok a o' =>
        cases a with
        | none =>
          refine ⟨n + 1, ?_⟩
          have : nxB (n + 1) o = some (.ok none o') := hB o n _ (by omega) _ hn
          simp only [drain, this]
          exact hr
        | some a =>
          simp only [caseR] at hr
          cases hd : drain (nxA N) fuel o' with
          | none => rw [hd] at hr; cases hr
          | some w =>
            rw [hd] at hr
            obtain ⟨m, hm⟩ := ih hd
            refine ⟨n + m + 1, ?_⟩
            have h1 : nxB (n + m + 1) o = some (.ok (some a) o') := hB o n _ (by omega) _ hn
            have h2 := le m (n + m + 1) m (n + m) o' w (by omega) (by omega) hm
            simp only [drain, h1, h2, caseR]
            exact hr
      | err e o' =>
        refine ⟨n + 1, ?_⟩
        have : nxB (n + 1) o = some (.err e o') := hB o n _ (by omega) _ hn
        simp only [drain, this]
        exact hr
      | panic =>
        refine ⟨n + 1, ?_⟩
        have : nxB (n + 1) o = some .panic := hB o n _ (by omega) _ hn
        simp only [drain, this]
        exact hr

theorem blen_utf8 (d : List Char) : blen (utf8 d) = blen d := by rw [blen_bytes, utf8_length]

/-- What a try gives on both sides. -/
theorem tries (hG : RulesSim rv G G') {p : Pat Char β} {q : Pat UInt8 β'} (h : PatSim rv p q)
    (hb : All G (Bounded G none) p) (ho : Opens G Starts p) {o : Nat} (hlt : o < blen d) :
    (∀ r, Runs G none d p o r ↔ Runs G' none (utf8 d) q o r) ∨
      ((∃ e, Runs G none d p o (.err e o)) ∧ ∃ e, Runs G' none (utf8 d) q o (.err e o)) := by
  by_cases hv : Valid d o
  · exact .inl fun r => C51_try_mat_agrees hG (pol := none) (pol' := none) trivial (fun _ h => by cases h) h hb d o hv r
  · obtain ⟨e, h1⟩ := opens_fail (str_fails (G := G) hlt hv) ho
    obtain ⟨e', h2⟩ := opens_fail (bytes_fail (G' := G') hlt hv) (opens_sim hG ho h)
    exact .inr ⟨⟨e, runs_iff.mpr h1⟩, e', runs_iff.mpr h2⟩

theorem loops (hG : RulesSim rv G G') {p : Pat Char β} {q : Pat UInt8 β'} (h : PatSim rv p q)
    (hb : All G (Bounded G none) p) (ho : Opens G Starts p) {func : Processor}
    (hf : ∀ e e' o, func (.error e) o = func (.error e') o) {α : Type} {k : Span → Out α} (o : Nat) (r : Res (Option α)) :
    (∃ n, findLoop (tryMat G n none d p) (blen d) func k n o = some r) ↔
      ∃ n, findLoop (tryMat G' n none (utf8 d) q) (blen (utf8 d)) func k n o = some r := by
  rw [blen_utf8]
  constructor
  · rintro ⟨n, hn⟩
    refine loop_same hf (mtA := fun n => tryMat G n none d p) (fun o => tryMat_mono G none d p o)
      (fun o => tryMat_mono G' none (utf8 d) q o) (fun o hlt => ?_) hn
    rcases tries hG h hb ho hlt with h | ⟨⟨e, n, h1⟩, e', n', h2⟩
    · exact .inl fun r => (h r).mp
    · exact .inr ⟨⟨n, e, h1⟩, n', e', h2⟩
  · rintro ⟨n, hn⟩
    refine loop_same hf (mtA := fun n => tryMat G' n none (utf8 d) q) (fun o => tryMat_mono G' none (utf8 d) q o)
      (fun o => tryMat_mono G none d p o) (fun o hlt => ?_) hn
    rcases tries hG h hb ho hlt with h | ⟨⟨e, n, h1⟩, e', n', h2⟩
    · exact .inl fun r => (h r).mpr
    · exact .inr ⟨⟨n', e', h2⟩, n, e, h1⟩

end FindUtf8

open FindUtf8

variable {β β' : Type} {rv : Val β → Val β' → Prop} {G : Rules Char β} {G' : Rules UInt8 β'}

/-- **C102.** `find` on a string and on its bytes, from any offset, gives the same span,
leaves the same offset, or ends (or hangs) on both. -/
theorem C102_find_agrees (hG : RulesSim rv G G') {p : Pat Char β} {q : Pat UInt8 β'} (h : PatSim rv p q)
    (hb : All G (Bounded G none) p) (ho : Opens G Starts p) (d : List Char) (o : Nat) (r : Res (Option Span)) :
    Finds G none d p .span o r ↔ Finds G' none (utf8 d) q .span o r :=
  loops hG h hb ho (fun _ _ _ => rfl) o r

/-- **C102.** `find_all` yields the same spans. -/
theorem C102_find_all_agrees (hG : RulesSim rv G G') {p : Pat Char β} {q : Pat UInt8 β'} (h : PatSim rv p q)
    (hb : All G (Bounded G none) p) (ho : Opens G Starts p) (d : List Char) (o : Nat) (r : Res (List Span)) :
    FindsAll G none d p .span o r ↔ FindsAll G' none (utf8 d) q .span o r :=
  ⟨fun ⟨_, hn⟩ => drain_same (fun o => findLoop_mono (fun o => tryMat_mono G' none (utf8 d) q o) o)
      (nxA := find G none d p .span)
      (fun _ o r hr => (C102_find_agrees hG h hb ho d o r).mp ⟨_, hr⟩) hn,
    fun ⟨_, hn⟩ => drain_same (fun o => findLoop_mono (fun o => tryMat_mono G none d p o) o)
      (nxA := find G' none (utf8 d) q .span)
      (fun _ o r hr => (C102_find_agrees hG h hb ho d o r).mpr ⟨_, hr⟩) hn⟩

/-- **C102.** `match_seq` yields the same spans. -/
theorem C102_match_seq_agrees (hG : RulesSim rv G G') {p : Pat Char β} {q : Pat UInt8 β'} (h : PatSim rv p q)
    (hb : All G (Bounded G none) p) (ho : Opens G Starts p) (d : List Char) (o : Nat) (r : Res (List Span)) :
    MatchSeqs G none d p .span o r ↔ MatchSeqs G' none (utf8 d) q .span o r := by
  have next : ∀ o r, SeqNext G none d p .span o r ↔ SeqNext G' none (utf8 d) q .span o r := by
    intro o r
    have := loops (d := d) hG h hb ho (func := seqProc (blen d)) (fun _ _ _ => rfl) (k := fun s => .ok s) o r
    unfold SeqNext seqNext
    simp only [blen_utf8] at this ⊢
    exact this
  exact ⟨fun ⟨_, hn⟩ => drain_same (fun o => findLoop_mono (fun o => tryMat_mono G' none (utf8 d) q o) o)
      (nxA := seqNext G none d p .span) (fun _ o r hr => (next o r).mp ⟨_, hr⟩) hn,
    fun ⟨_, hn⟩ => drain_same (fun o => findLoop_mono (fun o => tryMat_mono G none d p o) o)
      (nxA := seqNext G' none (utf8 d) q .span) (fun _ o r hr => (next o r).mpr ⟨_, hr⟩) hn⟩

/-- Some first part is needed: the complement of a literal, then a run of anything but
quotes.  In the string `é` there is nothing to find; in its bytes the search comes to the
second byte of the character and matches there. -/
theorem C102_no_first_part_counterexample :
    PatSim (β := Unit) (β' := Unit) (· = ·)
      (.thn (.assert (.lit ['é']) false) (.many1 (.not (.item '"')) .empty))
      (.thn (.assert (.lit (utf8 ['é'])) false) (.many1 (.not (.item 34)) .empty)) ∧
    Finds (β := Unit) G0 none ['é'] (.thn (.assert (.lit ['é']) false) (.many1 (.not (.item '"')) .empty))
      .span 0 (.ok none 2) ∧
    Finds (β := Unit) G0 none (utf8 ['é'])
      (.thn (.assert (.lit (utf8 ['é'])) false) (.many1 (.not (.item 34)) .empty))
      .span 0 (.ok (some ⟨1, 1⟩) 2) :=
  ⟨.thn (.assert false (.lit _)) (.many1Wide (UnitSim.item '"' (by decide)).not), ⟨4, by decide⟩, ⟨4, by decide⟩⟩

/-! ### The hypotheses are met -/

/-- A quoted string of any characters. -/
private def quotedText : Pat Char Unit := .enclose (.lit ['"']) (.many0 (.not (.item '"')) .empty) (.lit ['"'])

private def quotedBytes : Pat UInt8 Unit := .enclose (.lit [34]) (.many0 (.not (.item 34)) .empty) (.lit [34])

private theorem quoted_sim : PatSim (· = ·) quotedText quotedBytes :=
  .enclose (.lit ['"']) (.many0Wide (UnitSim.item '"' (by decide)).not) (.lit ['"'])

private theorem quoted_bounded : All (G0 (β := Unit)) (Bounded G0 none) quotedText := by
  refine All.intro (by trivial) ?_
  rintro q (rfl | rfl | rfl) <;> exact All.intro (by trivial) (by simp [Child, Cond.Has])

/-- In `é "ü"x` both searches find the quoted part. -/
example : FindsAll (β := Unit) G0 none (utf8 ['é', ' ', '"', 'ü', '"', 'x']) quotedBytes .span 0 (.ok [⟨3, 4⟩] 8) :=
  (C102_find_all_agrees (rv := (· = ·)) (fun _ => trivial) quoted_sim quoted_bounded
    (.enclose (.first (by simp [Starts]))) _ 0 _).mp ⟨12, rfl⟩

example : Finds (β := Unit) G0 none (utf8 ['é', ' ', '"', 'ü', '"', 'x']) quotedBytes .span 1 (.ok (some ⟨3, 4⟩) 7) :=
  (C102_find_agrees (rv := (· = ·)) (fun _ => trivial) quoted_sim quoted_bounded
    (.enclose (.first (by simp [Starts]))) _ 1 _).mp ⟨12, rfl⟩

example : MatchSeqs (β := Unit) G0 none (utf8 ['"', 'ü', '"', '"', '"', 'x']) quotedBytes .span 0 (.ok [⟨0, 4⟩, ⟨4, 2⟩] 7) :=
  (C102_match_seq_agrees (rv := (· = ·)) (fun _ => trivial) quoted_sim quoted_bounded
    (.enclose (.first (by simp [Starts]))) _ 0 _).mp ⟨12, rfl⟩

end Neure
