import Verif.PropsFindUtf8

/-!
# C102: the texts found in a string and in its bytes

`find::<&str>` on a string and `find::<&[u8]>` on its bytes: what the second returns are
the bytes of what the first returns.
-/

set_option linter.unusedSectionVars false
set_option linter.unusedSimpArgs false

namespace Neure

open Demo

namespace FindUtf8

/-- Results with corresponding values and the same offsets. -/
inductive RelRes {α α' : Type} (Q : α → α' → Prop) : Res α → Res α' → Prop where
  | ok {a a' o} : Q a a' → RelRes Q (.ok a o) (.ok a' o)
  | err {e o} : RelRes Q (.err e o) (.err e o)
  | panic : RelRes Q .panic .panic

/-- Nothing on both sides, or corresponding items. -/
inductive RelOpt {α α' : Type} (Q : α → α' → Prop) : Option α → Option α' → Prop where
  | none : RelOpt Q none none
  | some {a a'} : Q a a' → RelOpt Q (some a) (some a')

theorem loop_rel {α α' : Type} {Q : α → α' → Prop} {mtA mtB : Nat → Nat → Option (Res Span)} {len : Nat}
    {func : Processor} {hA : Span → Out α} {hB : Span → Out α'}
    (hf : ∀ e e' o, func (.error e) o = func (.error e') o) (hf0 : ∀ e o, (func (.error e) o).1 = none)
    (mA : ∀ o, Mono fun n => mtA n o) (mB : ∀ o, Mono fun n => mtB n o)
    (hs : ∀ o, o < len → ((∀ r, (∃ n, mtA n o = some r) → ∃ n, mtB n o = some r) ∧
        ∀ s k, (∃ n, mtA n o = some (.ok s k)) → ∀ s', (func (.ok s) k).1 = some s' →
          ∃ a a', hA s' = .ok a ∧ hB s' = .ok a' ∧ Q a a') ∨
      ((∃ n e, mtA n o = some (.err e o)) ∧ ∃ n e, mtB n o = some (.err e o)))
    {N fuel o : Nat} {r : Res (Option α)} (hr : findLoop (mtA N) len func hA fuel o = some r) :
    ∃ r', (∃ n, findLoop (mtB n) len func hB n o = some r') ∧ RelRes (RelOpt Q) r r' := by
  induction fuel generalizing o with
  | zero => cases hr
  | succ fuel ih =>
    have key := fun r' => (findLoop_iff (len := len) (func := func) (h := hB) mB o r').mpr
    simp only [findLoop] at hr
    split at hr
    · next hlt =>
      simp only [if_pos hlt] at key
      cases hv : mtA N o with
      | none => rw [hv] at hr; cases hr
      | some v =>
        rw [hv] at hr
        have goOn : ∀ {ret ret' k}, func ret k = func ret' k → (func ret k).1 = none →
            findBody func hA (findLoop (mtA N) len func hA fuel) ret k = some r →
            ∃ r', BodyGives func hB (fun o r => ∃ n, findLoop (mtB n) len func hB n o = some r) ret' k r' ∧
              RelRes (RelOpt Q) r r' := by
          intro ret ret' k heq hn hb
          unfold findBody at hb
          unfold BodyGives
          rw [← heq]
          rcases hfr : func ret k with ⟨_ | s, o2⟩
          · rw [hfr] at hb
            exact ih hb
          · rw [hfr] at hn
            cases hn
        rcases hs o hlt with ⟨same, hx⟩ | ⟨⟨n, e, he⟩, n', e', he'⟩
        · cases v with
          | ok s k =>
            rcases hfr : func (.ok s) k with ⟨_ | s', o2⟩
            · obtain ⟨r', h1, h2⟩ := goOn (ret := .ok s) (ret' := .ok s) rfl (by rw [hfr]) hr
              exact ⟨r', key _ ⟨_, same _ ⟨N, hv⟩, h1⟩, h2⟩
            · obtain ⟨a, a', ha, ha', hq⟩ := hx s k ⟨N, hv⟩ s' (by rw [hfr])
              have hr : findBody func hA (findLoop (mtA N) len func hA fuel) (.ok s) k = some r := hr
              simp only [findBody, hfr, ha, Option.some.injEq] at hr
              subst hr
              exact ⟨.ok (some a') o2, key _ ⟨_, same _ ⟨N, hv⟩, by simp only [BodyGives, hfr, ha']⟩, .ok (.some hq)⟩
          | err e k =>
            obtain ⟨r', h1, h2⟩ := goOn (ret := .error e) (ret' := .error e) rfl (hf0 e k) hr
            exact ⟨r', key _ ⟨_, same _ ⟨N, hv⟩, h1⟩, h2⟩
          | panic =>
            have hr : some (Res.panic) = some r := hr
            cases hr
            exact ⟨.panic, key _ ⟨_, same _ ⟨N, hv⟩, rfl⟩, .panic⟩
        · have : v = .err e o := by
            rcases Nat.le_total N n with hle | hle
            · exact Option.some.inj ((mA o N n hle _ hv).symm.trans he)
            · exact (Option.some.inj ((mA o n N hle _ he).symm.trans hv)).symm
          subst this
          obtain ⟨r', h1, h2⟩ := goOn (ret := .error e) (ret' := .error e') (hf e e' o) (hf0 e o) hr
          exact ⟨r', key _ ⟨_, ⟨n', he'⟩, h1⟩, h2⟩
    · next hlt =>
      simp only [if_neg hlt] at key
      cases hr
      exact ⟨_, key _ rfl, .ok .none⟩

/-- Lists item by item. -/
inductive RelList {α α' : Type} (Q : α → α' → Prop) : List α → List α' → Prop where
  | nil : RelList Q [] []
  | cons {a a' l l'} : Q a a' → RelList Q l l' → RelList Q (a :: l) (a' :: l')

theorem drain_le {α : Type} {nx : Nat → Nat → Option (Res (Option α))} (hm : ∀ o, Mono fun n => nx n o) :
    ∀ N M fuel fuel' o r, N ≤ M → fuel ≤ fuel' → drain (nx N) fuel o = some r → drain (nx M) fuel' o = some r := by
  intro N M fuel
  induction fuel with
  | zero => intro fuel' o r _ _ h; cases h
  | succ fuel ih =>
    intro fuel' o r hNM hf h
    obtain ⟨f2, rfl⟩ : ∃ f2, fuel' = f2 + 1 := ⟨fuel' - 1, by omega⟩
    simp only [drain] at h ⊢
    cases hv : nx N o with
    | none => rw [hv] at h; cases h
    | some v =>
      rw [hv] at h
      have hM : nx M o = some v := hm o N M hNM _ hv
      rw [hM]
      cases v with
      | ok a o' =>
        cases a with
        | none => exact h
        | some a =>
          simp only [caseR] at h ⊢
          cases hd : drain (nx N) fuel o' with
          | none => rw [hd] at h; cases h
          | some w => rw [hd] at h; rw [ih f2 o' w hNM (by omega) hd]; exact h
      | err e o' => exact h
      | panic => exact h

theorem drain_rel {α α' : Type} {Q : α → α' → Prop} {nxA : Nat → Nat → Option (Res (Option α))}
    {nxB : Nat → Nat → Option (Res (Option α'))} (mB : ∀ o, Mono fun n => nxB n o)
    (hs : ∀ N o r, nxA N o = some r → ∃ r', (∃ n, nxB n o = some r') ∧ RelRes (RelOpt Q) r r')
    {N fuel o : Nat} {r : Res (List α)} (hr : drain (nxA N) fuel o = some r) :
    ∃ r', (∃ n, drain (nxB n) n o = some r') ∧ RelRes (RelList Q) r r' := by
  induction fuel generalizing o r with
  | zero => cases hr
  | succ fuel ih =>
    simp only [drain] at hr
    cases hv : nxA N o with
    | none => rw [hv] at hr; cases hr
    | some v =>
      rw [hv] at hr
      obtain ⟨v', ⟨n, hn⟩, hrel⟩ := hs N o v hv
      have up : nxB (n + 1) o = some v' := mB o n (n + 1) (by omega) _ hn
      cases hrel with
      | @ok a a' o' hq =>
        cases hq with
        | none =>
          simp only [caseR, Option.some.injEq] at hr
          subst hr
          exact ⟨.ok [] o', ⟨n + 1, by simp only [drain, up, caseR]⟩, .ok .nil⟩
        | @some a a' hq =>
          simp only [caseR] at hr
          cases hd : drain (nxA N) fuel o' with
          | none => rw [hd] at hr; cases hr
          | some w =>
            rw [hd] at hr
            obtain ⟨w', ⟨m, hm⟩, hw⟩ := ih hd
            have h1 : nxB (n + m + 1) o = some (.ok (some a') o') := mB o n _ (by omega) _ hn
            have h2 := drain_le mB m (n + m + 1) m (n + m) o' w' (by omega) (by omega) hm
            cases hw with
            | ok hl =>
              cases hr
              exact ⟨_, ⟨n + m + 1, by simp only [drain, h1, h2, caseR]⟩, .ok (.cons hq hl)⟩
            | err => cases hr; exact ⟨_, ⟨n + m + 1, by simp only [drain, h1, h2, caseR]⟩, .err⟩
            | panic => cases hr; exact ⟨_, ⟨n + m + 1, by simp only [drain, h1, h2, caseR]⟩, .panic⟩
      | err => cases hr; exact ⟨_, ⟨n + 1, by simp only [drain, up, caseR]⟩, .err⟩
      | panic => cases hr; exact ⟨_, ⟨n + 1, by simp only [drain, up, caseR]⟩, .panic⟩

variable {β β' : Type} {rv : Val β → Val β' → Prop} {G : Rules Char β} {G' : Rules UInt8 β'} {d : List Char}

/-- What a match of a string is, and the bytes of it. -/
theorem hit_text {p : Pat Char β} (hb : All G (Bounded G none) p) {o k : Nat} {s : Span} (hv : Valid d o)
    (hr : Runs G none d p o (.ok s k)) :
    ∃ t, origSub d s.beg s.len = .ok t ∧ origSub (utf8 d) s.beg s.len = .ok (utf8 t) := by
  obtain ⟨h1, -⟩ := C03_spans_are_valid_slices G none (fun _ h => by cases h) d p hb o hv
  obtain ⟨-, t, ht, -⟩ := h1 s k hr
  obtain ⟨pre, post, rfl, hp, hl⟩ := origSub_ok.mp ht
  refine ⟨t, ht, origSub_ok.mpr ⟨utf8 pre, utf8 post, by simp [utf8_append], ?_, ?_⟩⟩
  · rw [blen_utf8]; exact hp
  · rw [blen_utf8]; exact hl

/-- The values of a span on both sides: for a string its text, for the bytes the bytes of it. -/
theorem loops_text (hG : RulesSim rv G G') {p : Pat Char β} {q : Pat UInt8 β'} (h : PatSim rv p q)
    (hb : All G (Bounded G none) p) (ho : Opens G Starts p) {func : Processor}
    (hf : ∀ e e' o, func (.error e) o = func (.error e') o) (hf0 : ∀ e o, (func (.error e) o).1 = none)
    (hf1 : ∀ s k s', (func (.ok s) k).1 = some s' → s' = s) (o : Nat) :
    (∀ r, (∃ n, findLoop (tryMat G n none d p) (blen d) func (Extract.slice.invoke d) n o = some r) →
      ∃ r', (∃ n, findLoop (tryMat G' n none (utf8 d) q) (blen d) func (Extract.slice.invoke (utf8 d)) n o = some r') ∧
        RelRes (RelOpt fun t b => b = utf8 t) r r') ∧
    ∀ r', (∃ n, findLoop (tryMat G' n none (utf8 d) q) (blen d) func (Extract.slice.invoke (utf8 d)) n o = some r') →
      ∃ r, (∃ n, findLoop (tryMat G n none d p) (blen d) func (Extract.slice.invoke d) n o = some r) ∧
        RelRes (RelOpt fun b t => b = utf8 t) r' r := by
  have case : ∀ o, o < blen d → (Valid d o ∧ ∀ r, Runs G none d p o r ↔ Runs G' none (utf8 d) q o r) ∨
      ((∃ e, Runs G none d p o (.err e o)) ∧ ∃ e, Runs G' none (utf8 d) q o (.err e o)) := by
    intro o hlt
    by_cases hv : Valid d o
    · exact .inl ⟨hv, fun r => C51_try_mat_agrees hG (pol := none) (pol' := none) trivial (fun _ h => by cases h)
        h hb d o hv r⟩
    · obtain ⟨e, h1⟩ := opens_fail (str_fails (G := G) hlt hv) ho
      obtain ⟨e', h2⟩ := opens_fail (bytes_fail (G' := G') hlt hv) (opens_sim hG ho h)
      exact .inr ⟨⟨e, runs_iff.mpr h1⟩, e', runs_iff.mpr h2⟩
  constructor
  · rintro r ⟨n, hn⟩
    refine loop_rel (Q := fun t b => b = utf8 t) hf hf0 (mtA := fun n => tryMat G n none d p)
      (mtB := fun n => tryMat G' n none (utf8 d) q)
      (fun o => tryMat_mono G none d p o) (fun o => tryMat_mono G' none (utf8 d) q o) (fun o hlt => ?_) hn
    rcases case o hlt with ⟨hv, hsame⟩ | ⟨⟨e, n, h1⟩, e', n', h2⟩
    · refine .inl ⟨fun r => (hsame r).mp, fun s k hs s' hs' => ?_⟩
      cases hf1 s k s' hs'
      obtain ⟨t, h1, h2⟩ := hit_text hb hv hs
      exact ⟨t, _, h1, h2, rfl⟩
    · exact .inr ⟨⟨n, e, h1⟩, n', e', h2⟩
  · rintro r ⟨n, hn⟩
    refine loop_rel (Q := fun b t => b = utf8 t) hf hf0 (mtA := fun n => tryMat G' n none (utf8 d) q)
      (mtB := fun n => tryMat G n none d p)
      (fun o => tryMat_mono G' none (utf8 d) q o) (fun o => tryMat_mono G none d p o) (fun o hlt => ?_) hn
    rcases case o hlt with ⟨hv, hsame⟩ | ⟨⟨e, n, h1⟩, e', n', h2⟩
    · refine .inl ⟨fun r => (hsame r).mpr, fun s k hs s' hs' => ?_⟩
      cases hf1 s k s' hs'
      obtain ⟨t, h1, h2⟩ := hit_text hb hv ((hsame _).mpr hs)
      exact ⟨_, t, h2, h1, rfl⟩
    · exact .inr ⟨⟨n', e', h2⟩, n, e, h1⟩

theorem list_eq {l : List (List Char)} {m : List (List UInt8)} (h : RelList (fun t b => b = utf8 t) l m) :
    m = l.map utf8 := by
  induction h with
  | nil => rfl
  | cons h1 _ ih => rw [h1, ih]; rfl

theorem list_eq' {l : List (List Char)} {m : List (List UInt8)} (h : RelList (fun b t => b = utf8 t) m l) :
    m = l.map utf8 := by
  induction h with
  | nil => rfl
  | cons h1 _ ih => rw [h1, ih]; rfl

theorem map_inj {l m : List (List Char)} (h : l.map utf8 = m.map utf8) : l = m := by
  induction l generalizing m with
  | nil => cases m with
    | nil => rfl
    | cons _ _ => cases h
  | cons x l ih => cases m with
    | nil => cases h
    | cons y m =>
      simp only [List.map_cons, List.cons.injEq] at h
      rw [utf8_inj h.1, ih h.2]

end FindUtf8

open FindUtf8

variable {β β' : Type} {rv : Val β → Val β' → Prop} {G : Rules Char β} {G' : Rules UInt8 β'}

/-- **C102, texts.** `find::<&str>` on a string gives a text exactly if `find::<&[u8]>` on
its bytes gives the bytes of that text; both leave the same offset. -/
theorem C102_find_text_agrees (hG : RulesSim rv G G') {p : Pat Char β} {q : Pat UInt8 β'} (h : PatSim rv p q)
    (hb : All G (Bounded G none) p) (ho : Opens G Starts p) (d : List Char) (o e : Nat) (t : Option (List Char)) :
    Finds G none d p .slice o (.ok t e) ↔ Finds G' none (utf8 d) q .slice o (.ok (t.map utf8) e) := by
  obtain ⟨h1, h2⟩ := loops_text (d := d) hG h hb ho (func := findProc) (fun _ _ _ => rfl) (fun _ _ => rfl)
    (fun s k s' hs => by simp only [findProc] at hs; split at hs <;> simp_all) o
  unfold Finds find
  rw [blen_utf8]
  constructor
  · intro hr
    obtain ⟨r', hr', hrel⟩ := h1 _ hr
    cases hrel with
    | ok hq => cases hq with
      | none => exact hr'
      | some hq => subst hq; exact hr'
  · intro hr
    obtain ⟨r', hr', hrel⟩ := h2 _ hr
    cases t with
    | none => cases hrel with
      | ok hq => cases hq; exact hr'
    | some t => cases hrel with
      | ok hq => cases hq with
        | some hq => rw [utf8_inj hq]; exact hr'

/-- **C102, texts.** The same for all texts that `find_all` yields. -/
theorem C102_find_all_texts_agree (hG : RulesSim rv G G') {p : Pat Char β} {q : Pat UInt8 β'} (h : PatSim rv p q)
    (hb : All G (Bounded G none) p) (ho : Opens G Starts p) (d : List Char) (o e : Nat) (l : List (List Char)) :
    FindsAll G none d p .slice o (.ok l e) ↔ FindsAll G' none (utf8 d) q .slice o (.ok (l.map utf8) e) := by
  have key := fun o => loops_text (d := d) hG h hb ho (func := findProc) (fun _ _ _ => rfl) (fun _ _ => rfl)
    (fun s k s' hs => by simp only [findProc] at hs; split at hs <;> simp_all) o
  constructor
  · rintro ⟨n, hr⟩
    obtain ⟨r', hr', hrel⟩ := drain_rel (Q := fun t b => b = utf8 t) (nxA := find G none d p .slice)
      (nxB := find G' none (utf8 d) q .slice)
      (fun o => findLoop_mono (fun o => tryMat_mono G' none (utf8 d) q o) o)
      (fun N o r hr => by
        have := (key o).1 r ⟨N, hr⟩
        unfold find
        rwa [blen_utf8]) hr
    cases hrel with
    | ok hq => rw [list_eq hq] at hr'; exact hr'
  · rintro ⟨n, hr⟩
    obtain ⟨r', hr', hrel⟩ := drain_rel (Q := fun b t => b = utf8 t) (nxA := find G' none (utf8 d) q .slice)
      (nxB := find G none d p .slice)
      (fun o => findLoop_mono (fun o => tryMat_mono G none d p o) o)
      (fun N o r hr => by
        refine (key o).2 r ⟨N, ?_⟩
        unfold find at hr
        rwa [blen_utf8] at hr) hr
    cases hrel with
    | ok hq => rw [map_inj (list_eq' hq)]; exact hr'

/-! ### The hypotheses are met -/

/-- A word of ASCII letters, then `é`. -/
private def cafe : Pat Char Unit := .thn (.many1 (.range ⟨.incl 97, .incl 122⟩) .empty) (.lit ['é'])

private def cafeBytes : Pat UInt8 Unit := .thn (.many1 (.range ⟨.incl 97, .incl 122⟩) .empty) (.lit (utf8 ['é']))

private theorem cafe_ascii (n : Nat) (h : 128 ≤ n) : CRange.contains ⟨.incl 97, .incl 122⟩ n = false := by
  simp [CRange.contains]; omega

private theorem cafe_sim : PatSim (· = ·) cafe cafeBytes :=
  .thn (.many1 (UnitSim.range _ cafe_ascii) .empty) (.lit ['é'])

private theorem cafe_bounded : All (G0 (β := Unit)) (Bounded G0 none) cafe := by
  refine All.intro (by trivial) ?_
  rintro q (rfl | rfl) <;> exact All.intro (by trivial) (by simp [Child, Cond.Has])

private theorem cafe_opens : Opens (G0 (β := Unit)) Starts cafe :=
  .thn (.first fun c hc => cafe_ascii c.toNat hc)

/-- In `üabé` both find `abé`, four bytes long, behind the first character. -/
example : Finds (β := Unit) G0 none (utf8 ['ü', 'a', 'b', 'é']) cafeBytes .slice 0
    (.ok (some (utf8 ['a', 'b', 'é'])) 6) :=
  (C102_find_text_agrees (rv := (· = ·)) (fun _ => trivial) cafe_sim cafe_bounded cafe_opens _ 0 6
    (some ['a', 'b', 'é'])).mp ⟨12, rfl⟩

example : FindsAll (β := Unit) G0 none (utf8 ['x', 'é', 'ü', 'a', 'é']) cafeBytes .slice 0
    (.ok [utf8 ['x', 'é'], utf8 ['a', 'é']] 8) :=
  (C102_find_all_texts_agree (rv := (· = ·)) (fun _ => trivial) cafe_sim cafe_bounded cafe_opens _ 0 8
    [['x', 'é'], ['a', 'é']]).mp ⟨12, rfl⟩

end Neure
