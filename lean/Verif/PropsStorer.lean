import Verif.StorerSpec
import Verif.Den
import Verif.Demo
import Verif.DataLemmas
/-!
# C36–C38: storers and span iterators
-/

namespace Neure

open Demo

set_option linter.unusedSectionVars false
set_option linter.unusedSimpArgs false

variable {ι β : Type} [Item ι] {G : Rules ι β} {pol : Option (Pat ι β)} {d : List ι}

/-! ## C36 `VecStorer` -/

namespace VecStorer

theorem addSpan_some {v v' : VecStorer} {id : Nat} {s : Span} :
    v.addSpan id s = some v' ↔ ∃ g, v.groups[id]? = some g ∧ v' = ⟨v.groups.set id (g ++ [s])⟩ := by
  unfold addSpan
  cases v.groups[id]? with
  | none => simp
  | some g => simp [eq_comm]

/-- Content of a group after one call. -/
theorem call_groups {n : Nat} {v v' : VecStorer} {o o' : Nat} {op : Op ι β} {ret : Ret}
    (h : call G pol d n v o op = some (some (ret, v', o'))) :
    v'.len = v.len ∧ ∀ i, i < v.len → v'.groups[i]?.getD [] =
      if op.clears i then [] else v.groups[i]?.getD [] ++ (added i (op, ret)).toList := by
  have key : ∀ (id : Nat) (s : Span) (v' : VecStorer), v.addSpan id s = some v' →
      v'.len = v.len ∧ ∀ i, i < v.len → v'.groups[i]?.getD [] =
        v.groups[i]?.getD [] ++ (if id = i then some s else none).toList := by
    intro id s v' h
    obtain ⟨g, hg, rfl⟩ := addSpan_some.1 h
    refine ⟨by simp [len], fun i hi => ?_⟩
    simp only [len] at hi
    simp only [List.getElem?_set]
    by_cases hid : id = i
    · subst hid; simp_all
    · simp [hid]
  cases op with
  | add id s =>
    simp only [call, Option.some.injEq, Option.map_eq_some_iff, Prod.mk.injEq] at h
    obtain ⟨v1, h1, rfl, rfl, rfl⟩ := h
    simpa [Op.clears, added] using key id s _ h1
  | clr id =>
    simp only [call, Option.some.injEq, Prod.mk.injEq] at h
    obtain ⟨rfl, rfl, rfl⟩ := h
    unfold clrSpan
    split
    · rename_i hn
      refine ⟨rfl, fun i hi => ?_⟩
      have : id ≠ i := by rintro rfl; simp only [len] at hi; simp at hn; omega
      simp [Op.clears, added, this]
    · refine ⟨by simp [len], fun i hi => ?_⟩
      simp only [len] at hi
      simp only [List.getElem?_set, Op.clears, added]
      by_cases hid : id = i
      · subst hid; simp [hi]
      · simp [hid]
  | reset =>
    simp only [call, Option.some.injEq, Prod.mk.injEq] at h
    obtain ⟨rfl, rfl, rfl⟩ := h
    refine ⟨by simp [len, reset], fun i hi => ?_⟩
    simp only [len] at hi
    simp [reset, Op.clears, hi]
  | cap id p =>
    simp only [call] at h
    split at h <;> simp only [reduceCtorEq, Option.some.injEq, Prod.mk.injEq,
      Option.map_eq_some_iff] at h
    · obtain ⟨rfl, rfl, rfl⟩ := h
      simp [Op.clears, added]
    · obtain ⟨v1, h1, rfl, rfl, rfl⟩ := h
      simpa [Op.clears, added] using key id _ _ h1

theorem sinceClear_snoc (i : Nat) (h : List (Op ι β × Ret)) (e : Op ι β × Ret) :
    sinceClear i (h ++ [e]) = if e.1.clears i then [] else sinceClear i h ++ [e] := by
  simp only [sinceClear, List.reverse_append, List.reverse_cons, List.reverse_nil, List.nil_append,
    List.singleton_append, List.takeWhile_cons]
  cases e.1.clears i <;> simp

theorem session_groups_from {v0 : VecStorer} {o : Nat} {h : List (Op ι β × Ret)} {v : VecStorer}
    {o' : Nat} (hs : Session G pol d v0 o h v o') :
    v.len = v0.len ∧ ∀ i, i < v0.len → v.groups[i]? = some
      ((if h.any (fun e => e.1.clears i) then [] else v0.groups[i]?.getD []) ++
        (sinceClear i h).filterMap (added i)) := by
  suffices v.len = v0.len ∧ ∀ i, i < v0.len → v.groups[i]?.getD [] =
      (if h.any (fun e => e.1.clears i) then [] else v0.groups[i]?.getD []) ++
        (sinceClear i h).filterMap (added i) by
    refine ⟨this.1, fun i hi => ?_⟩
    have h1 := this.2 i hi
    have h2 : i < v.groups.length := by have := this.1; simp only [len] at this hi; omega
    rw [← h1, List.getElem?_eq_getElem h2]; simp
  induction hs with
  | start =>
    refine ⟨rfl, fun i hi => ?_⟩
    simp [sinceClear]
  | @call h _ _ op ret _ _ _ _ hc ih =>
    obtain ⟨h1, h2⟩ := call_groups hc
    refine ⟨h1.trans ih.1, fun i hi => ?_⟩
    rw [h2 i (by rw [ih.1]; exact hi), ih.2 i hi, sinceClear_snoc]
    by_cases hop : op.clears i = true
    · simp [hop]
    · simp only [Bool.not_eq_true] at hop
      simp only [hop, Bool.false_eq_true, if_false, List.any_append, List.any_cons, List.any_nil,
        Bool.or_false, List.append_assoc, List.filterMap_append]
      congr 2

theorem session_groups {cap : Nat} {o : Nat} {h : List (Op ι β × Ret)} {v : VecStorer} {o' : Nat}
    (hs : Session G pol d (new cap) o h v o') :
    v.len = cap ∧ ∀ i, i < cap → v.groups[i]? = some ((sinceClear i h).filterMap (added i)) := by
  obtain ⟨h1, h2⟩ := session_groups_from hs
  have hl : (new cap).len = cap := by simp [len, new]
  rw [hl] at h1 h2
  refine ⟨h1, fun i hi => ?_⟩
  rw [h2 i hi]
  have : (new cap).groups[i]?.getD [] = [] := by simp [new, hi]
  simp [this]

end VecStorer

open VecStorer in
/-- **C36.**  After any history of calls on a storer created with `new(cap)` or
re-created with `with_capacity(cap)`, every group `i` holds exactly the spans that
were added to it (by `add_span(i, ..)` or by a successful `try_cap(i, ..)`) since
the last call that emptied it, in order, as seen through every query: `len`,
`span`, `spans`, `contain`, `spans_iter`, `slice`, `slice_iter`; groups that do
not exist are reported as empty.  (What the iterators yield is C38.) -/
theorem C36_group_is_the_log {cap : Nat} {v0 : VecStorer} {o : Nat} {h : List (Op ι β × Ret)}
    {v : VecStorer} {o' : Nat} (h0 : v0 = new cap ∨ ∃ w : VecStorer, v0 = w.withCapacity cap)
    (hs : Session G pol d v0 o h v o') (text : List ι) :
    v.len = cap ∧
    (∀ i, i < cap →
      (∀ k, v.span i k = ((sinceClear i h).filterMap (added i))[k]?) ∧
      (v.contain i = true ↔ (sinceClear i h).filterMap (added i) ≠ []) ∧
      ((sinceClear i h).filterMap (added i) ≠ [] →
        v.spans i = some ((sinceClear i h).filterMap (added i)) ∧
        v.spansIter i = some (Cursor.new ((sinceClear i h).filterMap (added i))) ∧
        v.sliceIter i = some (Cursor.new ((sinceClear i h).filterMap (added i)))) ∧
      ((sinceClear i h).filterMap (added i) = [] →
        v.spans i = none ∧ v.spansIter i = none ∧ v.sliceIter i = none) ∧
      (∀ k, v.slice text i k = match ((sinceClear i h).filterMap (added i))[k]? with
        | some s => getBySpan text s
        | none => none)) ∧
    (∀ i, cap ≤ i → (∀ k, v.span i k = none ∧ v.slice text i k = none) ∧ v.contain i = false ∧
      v.spans i = none ∧ v.spansIter i = none ∧ v.sliceIter i = none) := by
  have e0 : v0 = new cap := by
    rcases h0 with rfl | ⟨w, rfl⟩
    · rfl
    · rfl
  subst e0
  obtain ⟨h1, h2⟩ := session_groups hs
  refine ⟨h1, fun i hi => ?_, fun i hi => ?_⟩
  · have h3 := h2 i hi
    refine ⟨fun k => by simp [span, h3], by simp [contain, h3], fun hne => ?_, fun he => ?_,
      fun k => ?_⟩
    · simp [spans, spansIter, sliceIter, h3, hne]
    · simp [spans, spansIter, sliceIter, h3, he]
    · simp only [slice, span, h3, Option.bind_some]
      cases ((sinceClear i h).filterMap (added i))[k]? <;> rfl
  · have h3 : v.groups[i]? = none := by
      simp only [len] at h1
      simp; omega
    simp [span, contain, spans, spansIter, sliceIter, slice, h3]

open VecStorer in
/-- **C36**, `new_with(groups)`: a storer created from given groups keeps, in each
group that no call has emptied, the given spans before those added later. -/
theorem C36_new_with {gs : List (List Span)} {o : Nat} {h : List (Op ι β × Ret)} {v : VecStorer}
    {o' : Nat} (hs : Session G pol d (newWith gs) o h v o') :
    v.len = gs.length ∧ ∀ i g, gs[i]? = some g → ∀ k,
      v.span i k = ((if ∃ e ∈ h, e.1.clears i = true then [] else g) ++
        (sinceClear i h).filterMap (added i))[k]? := by
  obtain ⟨h1, h2⟩ := session_groups_from hs
  refine ⟨h1, fun i g hg k => ?_⟩
  have hi : i < (newWith gs).len := (List.getElem?_eq_some_iff.1 hg).1
  have hg' : (newWith gs).groups[i]? = some g := hg
  simp only [span, h2 i hi, Option.bind_some, hg', Option.getD_some, List.any_eq_true]

open VecStorer in
/-- **C36**, context: calls other than `try_cap` return nothing and leave the
context where it was. -/
theorem C36_other_calls_leave_context {v v' : VecStorer} {o o' n : Nat} {op : Op ι β} {ret : Ret}
    (hop : ∀ id p, op ≠ .cap id p) (h : call G pol d n v o op = some (some (ret, v', o'))) :
    ret = .unit ∧ o' = o := by
  cases op with
  | add id s =>
    simp only [call, Option.some.injEq, Option.map_eq_some_iff, Prod.mk.injEq] at h
    obtain ⟨_, _, rfl, rfl, rfl⟩ := h
    exact ⟨rfl, rfl⟩
  | clr id => simp only [call, Option.some.injEq, Prod.mk.injEq] at h; exact ⟨h.1.symm, h.2.2.symm⟩
  | reset => simp only [call, Option.some.injEq, Prod.mk.injEq] at h; exact ⟨h.1.symm, h.2.2.symm⟩
  | cap id p => exact absurd rfl (hop id p)

open VecStorer in
/-- **C36**, captures: `try_cap(id, ctx, p)` is `ctx.try_mat(p)`: it returns the
same result and moves the context in the same way; on failure the storer is
unchanged.  It panics exactly if the match does, or if the match *succeeds* and
the group does not exist. -/
theorem C36_try_cap (v : VecStorer) (id : Nat) (p : Pat ι β) (o : Nat) :
    (∀ e o', Runs G pol d p o (.err e o') →
      ∃ n, call G pol d n v o (.cap id p) = some (some (.err e, v, o'))) ∧
    (∀ s o', Runs G pol d p o (.ok s o') → id < v.len →
      ∃ n v', call G pol d n v o (.cap id p) = some (some (.span s, v', o')) ∧
        v.addSpan id s = some v') ∧
    (∀ s o', Runs G pol d p o (.ok s o') → v.len ≤ id →
      ∃ n, call G pol d n v o (.cap id p) = some none) ∧
    (Runs G pol d p o .panic → ∃ n, call G pol d n v o (.cap id p) = some none) := by
  refine ⟨?_, ?_, ?_, ?_⟩
  · rintro e o' ⟨n, hn⟩
    exact ⟨n, by simp [call, hn]⟩
  · rintro s o' ⟨n, hn⟩ hid
    simp only [len] at hid
    have : v.addSpan id s = some ⟨v.groups.set id (v.groups[id] ++ [s])⟩ :=
      addSpan_some.2 ⟨_, by simp [hid], rfl⟩
    exact ⟨n, _, by simp [call, hn, this], this⟩
  · rintro s o' ⟨n, hn⟩ hid
    simp only [len] at hid
    refine ⟨n, ?_⟩
    have : v.addSpan id s = none := by
      unfold addSpan; rw [List.getElem?_eq_none hid]
    simp [call, hn, this]
  · rintro ⟨n, hn⟩
    exact ⟨n, by simp [call, hn]⟩

open VecStorer in
/-- **C36**, panics: apart from captures, only adding to a group that does not
exist panics. -/
theorem C36_panics (v : VecStorer) (o n : Nat) :
    (∀ id s, call G pol d n v o (.add id s : Op ι β) = some none ↔ v.len ≤ id) ∧
    (∀ id, call G pol d n v o (.clr id : Op ι β) ≠ some none) ∧
    call G pol d n v o (.reset : Op ι β) ≠ some none := by
  refine ⟨fun id s => ?_, fun id => by simp [call], by simp [call]⟩
  simp only [call, Option.some.injEq, Option.map_eq_none_iff, addSpan, len]
  split
  · rename_i h
    simpa using h
  · rename_i h
    have := List.getElem?_eq_some_iff.1 h
    simp; exact this.1

open VecStorer in
/-- Non-vacuity of C36: capturing two digits, a failing capture, an
`add_span` to another group, a clear of that group and a further capture. -/
example : ∃ (h : List (Op Char Nat × Ret)) (v : VecStorer) (o' : Nat),
    Session (G0 : Rules Char Nat) none ['1', '2', 'x'] (new 2) 0 h v o' ∧ h.length = 6 ∧ o' = 3 ∧
      v.spans 0 = some [⟨0, 1⟩, ⟨1, 1⟩] ∧ v.spans 1 = some [⟨2, 1⟩] := by
  refine ⟨_, _, _, Session.call (n := 2) (op := .cap 1 (.lit ['x'])) (Session.call (n := 2)
    (op := .clr 1) (Session.call (n := 2) (op := .add 1 ⟨7, 7⟩) (Session.call (n := 2)
    (op := .cap 0 (.lit ['1'])) (Session.call (n := 2) (op := .cap 0 (.lit ['2']))
    (Session.call (n := 2) (op := .cap 0 (.lit ['1'])) Session.start rfl) rfl) rfl) rfl) rfl) rfl,
    rfl, rfl, rfl, rfl⟩

/-! ## C37 `ArrayStorer` -/

namespace ArrayStorer

theorem setSpan_some {v v' : ArrayStorer} {id i : Nat} {s : Span} :
    v.setSpan id i s = some v' ↔ ∃ r, v.rows[id]? = some r ∧ i < r.length ∧
      v' = ⟨v.rows.set id (r.set i (some s))⟩ := by
  unfold setSpan
  cases v.rows[id]? with
  | none => simp
  | some r =>
    by_cases h : i < r.length
    · simp [h, eq_comm]
    · simp [h]

/-- `M` rows of `N` cells. -/
def Sized (m n : Nat) (v : ArrayStorer) : Prop :=
  v.rows.length = m ∧ ∀ r, r ∈ v.rows → r.length = n

theorem span_set {v v' : ArrayStorer} {id k : Nat} {s : Span} (h : v.setSpan id k s = some v')
    (i j : Nat) : v'.span i j = if id = i ∧ k = j then some s else v.span i j := by
  obtain ⟨r, h1, h2, rfl⟩ := setSpan_some.1 h
  have h3 := (List.getElem?_eq_some_iff.1 h1).1
  simp only [span, List.getElem?_set]
  by_cases hid : id = i
  · subst hid
    by_cases hk : k = j
    · subst hk; simp [h3, h2]
    · have h4 : v.rows[id] = r := by simpa [h3] using h1
      simp [h3, hk, h4]
  · simp [hid]

theorem sized_set {m n : Nat} {v v' : ArrayStorer} {id k : Nat} {s : Span}
    (h : v.setSpan id k s = some v') (hv : Sized m n v) : Sized m n v' := by
  obtain ⟨r, h1, h2, rfl⟩ := setSpan_some.1 h
  refine ⟨by simp [hv.1], fun r' hr => ?_⟩
  rcases List.mem_or_eq_of_mem_set hr with h | rfl
  · exact hv.2 _ h
  · simpa using hv.2 r (List.mem_of_getElem? h1)

theorem call_cells {m n f : Nat} {v v' : ArrayStorer} {o o' : Nat} {op : Op ι β}
    {ret : VecStorer.Ret} (hv : Sized m n v)
    (h : call G pol d f v o op = some (some (ret, v', o'))) :
    Sized m n v' ∧ ∀ i j, v'.span i j =
      if op.clears i then none else (written i j (op, ret)).or (v.span i j) := by
  cases op with
  | set id k s =>
    simp only [call, Option.some.injEq, Option.map_eq_some_iff, Prod.mk.injEq] at h
    obtain ⟨v1, h1, rfl, rfl, rfl⟩ := h
    refine ⟨sized_set h1 hv, fun i j => ?_⟩
    rw [span_set h1]
    simp only [Op.clears, written]
    split <;> simp
  | clr id =>
    simp only [call, Option.some.injEq, Prod.mk.injEq] at h
    obtain ⟨rfl, rfl, rfl⟩ := h
    unfold clrSpan
    split
    · rename_i hn
      refine ⟨hv, fun i j => ?_⟩
      by_cases hid : id = i
      · subst hid; simp [Op.clears, span, hn]
      · simp [Op.clears, written, hid]
    · rename_i r hr
      have h3 := (List.getElem?_eq_some_iff.1 hr).1
      refine ⟨⟨by simp [hv.1], fun r' hr' => ?_⟩, fun i j => ?_⟩
      · rcases List.mem_or_eq_of_mem_set hr' with h | rfl
        · exact hv.2 _ h
        · simpa using hv.2 r (List.mem_of_getElem? hr)
      · simp only [span, List.getElem?_set, Op.clears, written]
        by_cases hid : id = i
        · subst hid; simp [h3]
        · simp [hid]
  | reset =>
    simp only [call, Option.some.injEq, Prod.mk.injEq] at h
    obtain ⟨rfl, rfl, rfl⟩ := h
    refine ⟨⟨by simp [reset, hv.1], fun r' hr' => ?_⟩, fun i j => ?_⟩
    · simp only [reset, List.mem_map] at hr'
      obtain ⟨r, hr, rfl⟩ := hr'
      simpa using hv.2 r hr
    · simp only [reset, span, Op.clears, List.getElem?_map]
      cases v.rows[i]? with
      | none => rfl
      | some r => simp
  | cap id k p =>
    simp only [call] at h
    split at h <;> simp only [reduceCtorEq, Option.some.injEq, Prod.mk.injEq,
      Option.map_eq_some_iff] at h
    · obtain ⟨rfl, rfl, rfl⟩ := h
      exact ⟨hv, by simp [Op.clears, written]⟩
    · obtain ⟨v1, h1, rfl, rfl, rfl⟩ := h
      refine ⟨sized_set h1 hv, fun i j => ?_⟩
      rw [span_set h1]
      simp only [Op.clears, written]
      split <;> simp

theorem sinceClearRev_snoc (i : Nat) (h : List (Op ι β × VecStorer.Ret))
    (e : Op ι β × VecStorer.Ret) : sinceClearRev i (h ++ [e]) =
      if e.1.clears i then [] else e :: sinceClearRev i h := by
  simp only [sinceClearRev, List.reverse_append, List.reverse_cons, List.reverse_nil,
    List.nil_append, List.singleton_append, List.takeWhile_cons]
  cases e.1.clears i <;> simp

theorem session_cells {m n o : Nat} {h : List (Op ι β × VecStorer.Ret)} {v : ArrayStorer} {o' : Nat}
    (hs : Session G pol d (new m n) o h v o') :
    Sized m n v ∧ ∀ i j, v.span i j = (sinceClearRev i h).findSome? (written i j) := by
  induction hs with
  | start =>
    refine ⟨⟨by simp [new], fun r hr => ?_⟩, fun i j => ?_⟩
    · simp [new] at hr; simp [hr.2]
    · simp only [new, span, sinceClearRev, List.getElem?_replicate]
      split <;> simp [List.getElem?_replicate]
  | call _ hc ih =>
    obtain ⟨h1, h2⟩ := call_cells ih.1 hc
    refine ⟨h1, fun i j => ?_⟩
    rw [h2, sinceClearRev_snoc, ih.2]
    split
    · simp
    · simp only [List.findSome?_cons]
      cases written i j _ <;> simp

end ArrayStorer

open ArrayStorer in
/-- **C37.**  After any history of calls on an `ArrayStorer<M, N>`, cell `j` of
group `i` holds the last span written to it (by `set_span(i, j, ..)` or by a
successful `try_cap(i, j, ..)`) since the last call that emptied group `i`, and
nothing if there is none; `contain(i)` says whether some cell of the group is
set; `spans(i)` is the row of the `N` cells. -/
theorem C37_cell_is_last_write {m n o : Nat} {h : List (Op ι β × VecStorer.Ret)} {v : ArrayStorer}
    {o' : Nat} (hs : Session G pol d (new m n) o h v o') :
    v.len = m ∧
    (∀ i j, v.span i j = (sinceClearRev i h).findSome? (written i j)) ∧
    (∀ i, v.contain i = true ↔ ∃ j, (v.span i j).isSome) ∧
    (∀ i row, v.spans i = some row ↔ i < m ∧ 0 < n ∧ row = (List.range n).map (v.span i)) := by
  obtain ⟨h1, h2⟩ := session_cells hs
  refine ⟨h1.1, h2, fun i => ?_, fun i row => ?_⟩
  · cases hr : v.rows[i]? with
    | none => simp [contain, span, hr]
    | some r =>
      simp only [contain, span, hr, Option.map_some, Option.getD_some, Option.bind_some,
        List.any_eq_true]
      constructor
      · rintro ⟨x, hx, hs⟩
        obtain ⟨j, hj⟩ := List.getElem?_of_mem hx
        exact ⟨j, by simpa [hj] using hs⟩
      · rintro ⟨j, hj⟩
        cases hx : r[j]? with
        | none => simp [hx] at hj
        | some x => exact ⟨x, List.mem_of_getElem? hx, by simpa [hx] using hj⟩
  · have h3 : ∀ r, v.rows[i]? = some r → r = (List.range n).map (v.span i) := by
      intro r hr
      have hl := h1.2 r (List.mem_of_getElem? hr)
      apply List.ext_getElem?
      intro j
      simp only [List.getElem?_map, List.getElem?_range, span, hr, Option.bind_some]
      by_cases hj : j < n
      · have : j < r.length := by omega
        simp [hj, span, hr, List.getElem?_eq_getElem this]
      · have : r.length ≤ j := by omega
        simp [hj, List.getElem?_eq_none this]
    have hm := h1.1
    cases hr : v.rows[i]? with
    | none =>
      simp only [List.getElem?_eq_none_iff] at hr
      simp only [spans, List.getElem?_eq_none hr, Option.bind_none, reduceCtorEq, false_iff]
      omega
    | some r =>
      have hi := (List.getElem?_eq_some_iff.1 hr).1
      have hl := h1.2 r (List.mem_of_getElem? hr)
      have he := h3 r hr
      simp only [spans, hr, Option.bind_some]
      cases r with
      | nil =>
        simp only [List.length_nil] at hl
        simp; omega
      | cons a l =>
        simp only [List.length_cons] at hl
        simp only [List.isEmpty_cons, Bool.false_eq_true, if_false, Option.some.injEq]
        rw [← he]
        constructor
        · rintro rfl; exact ⟨by omega, by omega, rfl⟩
        · rintro ⟨-, -, rfl⟩; rfl

open ArrayStorer in
/-- **C37**, captures: as C36.  A successful match whose cell does not exist
panics. -/
theorem C37_try_cap (v : ArrayStorer) (id k : Nat) (p : Pat ι β) (o : Nat) :
    (∀ e o', Runs G pol d p o (.err e o') →
      ∃ n, call G pol d n v o (.cap id k p) = some (some (.err e, v, o'))) ∧
    (∀ s o' v', Runs G pol d p o (.ok s o') → v.setSpan id k s = some v' →
      ∃ n, call G pol d n v o (.cap id k p) = some (some (.span s, v', o'))) ∧
    (∀ s o', Runs G pol d p o (.ok s o') → v.setSpan id k s = none →
      ∃ n, call G pol d n v o (.cap id k p) = some none) ∧
    (Runs G pol d p o .panic → ∃ n, call G pol d n v o (.cap id k p) = some none) := by
  refine ⟨?_, ?_, ?_, ?_⟩
  · rintro e o' ⟨n, hn⟩; exact ⟨n, by simp [call, hn]⟩
  · rintro s o' v' ⟨n, hn⟩ h; exact ⟨n, by simp [call, hn, h]⟩
  · rintro s o' ⟨n, hn⟩ h; exact ⟨n, by simp [call, hn, h]⟩
  · rintro ⟨n, hn⟩; exact ⟨n, by simp [call, hn]⟩

open ArrayStorer in
/-- **C37**, context: as C36. -/
theorem C37_other_calls_leave_context {v v' : ArrayStorer} {o o' n : Nat} {op : Op ι β}
    {ret : VecStorer.Ret} (hop : ∀ id k p, op ≠ .cap id k p)
    (h : call G pol d n v o op = some (some (ret, v', o'))) : ret = .unit ∧ o' = o := by
  cases op with
  | set id k s =>
    simp only [call, Option.some.injEq, Option.map_eq_some_iff, Prod.mk.injEq] at h
    obtain ⟨_, _, rfl, rfl, rfl⟩ := h
    exact ⟨rfl, rfl⟩
  | clr id => simp only [call, Option.some.injEq, Prod.mk.injEq] at h; exact ⟨h.1.symm, h.2.2.symm⟩
  | reset => simp only [call, Option.some.injEq, Prod.mk.injEq] at h; exact ⟨h.1.symm, h.2.2.symm⟩
  | cap id k p => exact absurd rfl (hop id k p)

open ArrayStorer in
/-- **C37**, derived queries: `slice` is the text of the cell, and the iterators
run over the row (what they yield is C38). -/
theorem C37_slices (v : ArrayStorer) (text : List ι) (i j : Nat) :
    (∀ s, v.span i j = some s → v.slice text i j = getBySpan text s) ∧
    (v.span i j = none → v.slice text i j = none) ∧
    (∀ row, v.spans i = some row →
      v.spansIter i = some (Cursor.new row) ∧ v.sliceIter i = some (Cursor.new row)) ∧
    (v.spans i = none → v.spansIter i = none ∧ v.sliceIter i = none) := by
  refine ⟨fun s h => by simp [slice, h], fun h => by simp [slice, h],
    fun row h => by simp [spansIter, sliceIter, h], fun h => by simp [spansIter, sliceIter, h]⟩

open ArrayStorer in
/-- **C37**, panics: writing panics exactly if the row or the cell does not
exist. -/
theorem C37_set_span_panics {m n o : Nat} {h : List (Op ι β × VecStorer.Ret)} {v : ArrayStorer}
    {o' : Nat} (hs : Session G pol d (new m n) o h v o') (id k : Nat) (s : Span) :
    v.setSpan id k s = none ↔ ¬ (id < m ∧ k < n) := by
  obtain ⟨⟨h1, h2⟩, -⟩ := session_cells hs
  unfold setSpan
  split
  · rename_i hr
    simp only [List.getElem?_eq_none_iff] at hr
    simp; omega
  · rename_i r hr
    have hi := (List.getElem?_eq_some_iff.1 hr).1
    have hl := h2 r (List.mem_of_getElem? hr)
    split <;> simp <;> omega

open ArrayStorer in
/-- Non-vacuity of C37. -/
example : ∃ (h : List (Op Char Nat × VecStorer.Ret)) (v : ArrayStorer) (o' : Nat),
    Session (G0 : Rules Char Nat) none ['1', '2', 'x'] (new 2 3) 0 h v o' ∧ h.length = 4 ∧ o' = 2 ∧
      v.span 0 1 = some ⟨1, 1⟩ ∧ v.span 1 0 = none ∧ v.contain 1 = false := by
  refine ⟨_, _, _, Session.call (n := 2) (op := .clr 1) (Session.call (n := 2)
    (op := .cap 0 1 (.lit ['2'])) (Session.call (n := 2) (op := .cap 1 0 (.lit ['1']))
    (Session.call (n := 2) (op := .set 0 1 ⟨7, 7⟩) Session.start rfl) rfl) rfl) rfl, rfl, rfl, rfl,
    rfl, rfl⟩

/-- The documentation of `spans`, `spans_iter` and `slice_iter` says they return
`None` for a group that "contains no spans".  They return `Some` although no cell is
set. -/
theorem C37_spans_of_empty_group_counterexample :
    ∃ v : ArrayStorer, v = ArrayStorer.new 1 2 ∧ v.contain 0 = false ∧
      v.spans 0 = some [none, none] ∧ (v.spansIter 0).isSome := ⟨_, rfl, rfl, rfl, rfl⟩

/-! ## C38 iterators -/

section Iterators

theorem callNext_length {σ α : Type} (next : σ → Option α × σ) (k : Nat) (s : σ) :
    (callNext next k s).1.length = k := by
  induction k generalizing s with
  | zero => rfl
  | succ k ih => simp [callNext, ih]

/-- Results and state of `k` calls, for an iterator whose `j`-th call is known. -/
theorem callNext_eq {σ α : Type} (next : σ → Option α × σ) (st : Nat → σ) (out : Nat → Option α)
    (h : ∀ j, next (st j) = (out j, st (j + 1))) (k j : Nat) :
    callNext next k (st j) = ((List.range k).map (fun i => out (j + i)), st (j + k)) := by
  induction k generalizing j with
  | zero => rfl
  | succ k ih =>
    simp only [callNext, h, ih]
    congr 1
    · rw [List.range_succ_eq_map]
      simp only [List.map_cons, List.map_map, Nat.add_zero]
      congr 1
      apply List.map_congr_left
      intro i _
      simp only [Function.comp]
      congr 1; omega
    · congr 1; omega

theorem forLoop_eq {σ α : Type} (next : σ → Option α × σ) (st : Nat → σ) (out : Nat → Option α)
    (h : ∀ j, next (st j) = (out j, st (j + 1))) (l : List α) (j : Nat)
    (hl : ∀ i (hi : i < l.length), out (j + i) = some l[i]) (he : out (j + l.length) = none) :
    forLoop next (l.length + 1) (st j) = some l := by
  induction l generalizing j with
  | nil => simp only [List.length_nil, Nat.add_zero] at he; simp [forLoop, h, he]
  | cons a l ih =>
    have h0 := hl 0 (by simp)
    simp only [Nat.add_zero, List.getElem_cons_zero] at h0
    simp only [List.length_cons, forLoop, h, h0]
    have := ih (j + 1) (fun i hi => by
      have := hl (i + 1) (by simpa using hi)
      rw [← Nat.add_assoc] at this
      simpa [Nat.add_right_comm] using this) (by
      simpa [Nat.add_assoc, Nat.add_comm 1] using he)
    simp only [forLoop, h] at this
    rw [this]; rfl

/-- Cursor states of the guarded iterators (the cursor stops at the end). -/
def stopAt {α : Type} (l : List α) (j : Nat) : Cursor α := ⟨min j l.length, l⟩

theorem nextSpan_stopAt (l : List Span) (j : Nat) :
    (stopAt l j).nextSpan = (l[j]?, stopAt l (j + 1)) := by
  unfold Cursor.nextSpan stopAt
  by_cases h : j < l.length
  · have h1 : min j l.length = j := by omega
    have h2 : min (j + 1) l.length = j + 1 := by omega
    simp [h1, h2, h]
  · have h1 : min j l.length = l.length := by omega
    have h2 : min (j + 1) l.length = l.length := by omega
    have h3 : l[j]? = none := by simp; omega
    simp [h1, h2, h3]

theorem nextOptSpan_stopAt (l : List (Option Span)) (j : Nat) :
    (stopAt l j).nextOptSpan = ((l[j]?).bind id, stopAt l (j + 1)) := by
  unfold Cursor.nextOptSpan stopAt
  by_cases h : j < l.length
  · have h1 : min j l.length = j := by omega
    have h2 : min (j + 1) l.length = j + 1 := by omega
    simp [h1, h2, h]
  · have h1 : min j l.length = l.length := by omega
    have h2 : min (j + 1) l.length = l.length := by omega
    have h3 : l[j]? = none := by simp; omega
    simp [h1, h2, h3]

theorem nextByte_stopAt {α : Type} (l : List α) (j : Nat) :
    (stopAt l j).nextByte = ((l[j]?).map (fun b => (j, b)), stopAt l (j + 1)) := by
  unfold Cursor.nextByte stopAt
  by_cases h : j < l.length
  · have h1 : min j l.length = j := by omega
    have h2 : min (j + 1) l.length = j + 1 := by omega
    simp [h1, h2, h]
  · have h1 : min j l.length = l.length := by omega
    have h2 : min (j + 1) l.length = l.length := by omega
    have h3 : l[j]? = none := by simp; omega
    simp [h1, h2, h3]

theorem new_stopAt {α : Type} (l : List α) : Cursor.new l = stopAt l 0 := by
  simp [Cursor.new, stopAt]

/-- **C38.**  `SpanIterator` (`VecStorer::spans_iter`): the `j`-th call of
`next()` returns the `j`-th span, and `None` from then on, however often it is
called; a `for` loop visits exactly the spans, in order. -/
theorem C38_span_iterator (l : List Span) :
    (∀ k, (callNext Cursor.nextSpan k (Cursor.new l)).1 = (List.range k).map fun j => l[j]?) ∧
    ∃ n, forLoop Cursor.nextSpan n (Cursor.new l) = some l := by
  rw [new_stopAt]
  refine ⟨fun k => ?_, l.length + 1, ?_⟩
  · rw [callNext_eq _ (stopAt l) (fun j => l[j]?) (nextSpan_stopAt l)]; simp
  · exact forLoop_eq _ (stopAt l) (fun j => l[j]?) (nextSpan_stopAt l) l 0
      (fun i hi => by simp [hi]) (by simp)

/-- **C38.**  `IteratorBySpan` (`VecStorer::slice_iter`): the `j`-th call of
`next()` returns the slice of the `j`-th span (`None` if that span is not a valid
slice of the value); a `for` loop visits the slices, in order, up to the first
invalid one. -/
theorem C38_slice_iterator (d : List ι) (l : List Span) :
    (∀ k, (callNext (Cursor.nextSlice d) k (Cursor.new l)).1 =
      (List.range k).map fun j => (l[j]?).bind (getBySpan d)) ∧
    ∃ n, forLoop (Cursor.nextSlice d) n (Cursor.new l) =
      some ((l.takeWhile fun s => (getBySpan d s).isSome).filterMap (getBySpan d)) := by
  have hn : ∀ j, Cursor.nextSlice d ⟨j, l⟩ =
      ((l[j]?).bind (getBySpan d), ⟨j + 1, l⟩) := fun j => rfl
  refine ⟨fun k => ?_, ?_⟩
  · have := callNext_eq _ (fun j => (⟨j, l⟩ : Cursor Span)) _ hn k 0
    simp only [Cursor.new, this]; simp
  · have hlen : ((l.takeWhile fun s => (getBySpan d s).isSome).filterMap (getBySpan d)).length =
        (l.takeWhile fun s => (getBySpan d s).isSome).length := by
      rw [List.length_filterMap_eq_countP, List.countP_eq_length]
      intro a ha; exact by
        have := List.all_takeWhile (p := fun s => (getBySpan d s).isSome) (l := l)
        exact List.all_eq_true.1 this a ha
    refine ⟨_, forLoop_eq _ (fun j => (⟨j, l⟩ : Cursor Span)) _ hn _ 0 ?_ ?_⟩
    · clear hlen
      intro i hi
      simp only [Nat.zero_add]
      induction l generalizing i with
      | nil => simp at hi
      | cons a l ih =>
        cases ha : getBySpan d a with
        | none => simp [List.takeWhile_cons, ha] at hi
        | some x =>
          cases i with
          | zero => simp [List.takeWhile_cons, ha]
          | succ i =>
            simp only [List.takeWhile_cons, ha, Option.isSome_some, if_true,
              List.filterMap_cons, List.length_cons] at hi
            have := ih (fun j => rfl) i (by omega)
            simpa [List.takeWhile_cons, ha] using this
    · rw [hlen]
      clear hlen
      simp only [Nat.zero_add]
      induction l with
      | nil => simp
      | cons a l ih =>
        cases ha : getBySpan d a with
        | none => simp [List.takeWhile_cons, ha]
        | some x =>
          have := ih (fun j => rfl)
          simpa [List.takeWhile_cons, ha] using this

/-- **C38/C37.**  `OptionSpanIterator` (`ArrayStorer::spans_iter`): the `j`-th
call of `next()` returns the content of the `j`-th cell; a `for` loop visits
the cells before the first unset one. -/
theorem C38_option_span_iterator (l : List (Option Span)) :
    (∀ k, (callNext Cursor.nextOptSpan k (Cursor.new l)).1 =
      (List.range k).map fun j => (l[j]?).bind id) ∧
    (∀ (front : List Span) (rest : List (Option Span)), l = front.map some ++ rest →
      rest = [] ∨ (∃ r, rest = none :: r) →
      ∃ n, forLoop Cursor.nextOptSpan n (Cursor.new l) = some front) := by
  rw [new_stopAt]
  refine ⟨fun k => ?_, fun front rest hl hr => ⟨front.length + 1, ?_⟩⟩
  · rw [callNext_eq _ (stopAt l) (fun j => (l[j]?).bind id) (nextOptSpan_stopAt l)]; simp
  · refine forLoop_eq _ (stopAt l) (fun j => (l[j]?).bind id) (nextOptSpan_stopAt l) front 0
      (fun i hi => ?_) ?_
    · subst hl
      simp [List.getElem?_append, hi]
    · subst hl
      rcases hr with rfl | ⟨r, rfl⟩ <;> simp [List.getElem?_append]

/-- **C38/C37.**  `IteratorByOptionSpan` (`ArrayStorer::slice_iter`): the `j`-th
call of `next()` returns the slice of the `j`-th cell; a `for` loop visits the
cells before the first one that is unset or not a valid slice. -/
theorem C38_option_slice_iterator (d : List ι) (l : List (Option Span)) :
    (∀ k, (callNext (Cursor.nextOptSlice d) k (Cursor.new l)).1 =
      (List.range k).map fun j => ((l[j]?).bind id).bind (getBySpan d)) ∧
    (∀ (front : List (Span × List ι)) (rest : List (Option Span)),
      l = front.map (fun x => some x.1) ++ rest →
      (∀ x, x ∈ front → getBySpan d x.1 = some x.2) →
      rest = [] ∨ (∃ r, rest = none :: r) ∨ (∃ s r, rest = some s :: r ∧ getBySpan d s = none) →
      ∃ n, forLoop (Cursor.nextOptSlice d) n (Cursor.new l) = some (front.map (·.2))) := by
  have hn : ∀ j, Cursor.nextOptSlice d ⟨j, l⟩ =
      (((l[j]?).bind id).bind (getBySpan d), ⟨j + 1, l⟩) := fun j => rfl
  refine ⟨fun k => ?_, fun front rest hl hf hr => ⟨(front.map (·.2)).length + 1, ?_⟩⟩
  · have := callNext_eq _ (fun j => (⟨j, l⟩ : Cursor (Option Span))) _ hn k 0
    simp only [Cursor.new, this]; simp
  · refine forLoop_eq _ (fun j => (⟨j, l⟩ : Cursor (Option Span))) _ hn (front.map (·.2)) 0
      (fun i hi => ?_) ?_
    · simp only [List.length_map] at hi
      subst hl
      have := hf _ (List.getElem_mem hi)
      simp [List.getElem?_append, hi, this]
    · subst hl
      rcases hr with rfl | ⟨r, rfl⟩ | ⟨s, r, rfl, hs⟩ <;> simp [List.getElem?_append, *]

/-- **C38.**  `BytesIndices`: the `j`-th call of `next()` returns `(j, byte j)`;
a `for` loop visits every byte once, with its index. -/
theorem C38_bytes_indices {α : Type} (l : List α) :
    (∀ k, (callNext Cursor.nextByte k (Cursor.new l)).1 =
      (List.range k).map fun j => (l[j]?).map (fun b => (j, b))) ∧
    ∃ n r, forLoop Cursor.nextByte n (Cursor.new l) = some r ∧ r.length = l.length ∧
      ∀ i : Nat, r[i]? = (l[i]?).map fun b => (i, b) := by
  rw [new_stopAt]
  refine ⟨fun k => ?_, _, l.zipIdx.map (fun x => (x.2, x.1)), forLoop_eq _ (stopAt l)
    (fun j => (l[j]?).map (fun b => (j, b))) (nextByte_stopAt l) _ 0 (fun i hi => ?_) ?_, by simp,
    fun i => ?_⟩
  · rw [callNext_eq _ (stopAt l) _ (nextByte_stopAt l)]; simp
  · simp at hi; simp [hi]
  · simp
  · simp only [List.getElem?_map, List.getElem?_zipIdx, Nat.zero_add]
    cases l[i]? <;> simp

/-- **C38.**  Size hints.  While at most `len` calls have been made, the hint of
`BytesIndices`, `IteratorBySpan` and `IteratorByOptionSpan` is `len` minus the
number of calls made. For `BytesIndices` it stays exact for ever. -/
theorem C38_size_hint (d : List ι) :
    (∀ (l : List Span) k, k ≤ l.length →
      (callNext (Cursor.nextSlice d) k (Cursor.new l)).2.sizeHint = some (l.length - k)) ∧
    (∀ (l : List (Option Span)) k, k ≤ l.length →
      (callNext (Cursor.nextOptSlice d) k (Cursor.new l)).2.sizeHint = some (l.length - k)) ∧
    (∀ (l : List ι) k,
      (callNext Cursor.nextByte k (Cursor.new l)).2.sizeHint = some (l.length - k)) := by
  refine ⟨fun l k hk => ?_, fun l k hk => ?_, fun l k => ?_⟩
  · have := callNext_eq _ (fun j => (⟨j, l⟩ : Cursor Span)) _
      (fun j => (rfl : Cursor.nextSlice d ⟨j, l⟩ = ((l[j]?).bind (getBySpan d), ⟨j + 1, l⟩))) k 0
    simp only [Cursor.new, this]
    simp [Cursor.sizeHint, hk]
  · have := callNext_eq _ (fun j => (⟨j, l⟩ : Cursor (Option Span))) _
      (fun j => (rfl : Cursor.nextOptSlice d ⟨j, l⟩ =
        (((l[j]?).bind id).bind (getBySpan d), ⟨j + 1, l⟩))) k 0
    simp only [Cursor.new, this]
    simp [Cursor.sizeHint, hk]
  · rw [new_stopAt, callNext_eq _ (stopAt l) _ (nextByte_stopAt l)]
    simp only [Cursor.sizeHint, stopAt, Nat.zero_add]
    rw [if_pos (by omega)]
    congr 1; omega

/-- One call past the end makes `size_hint` of the slice iterators subtract
below zero: after `len + 1` calls (what a `for` loop does) it panics (wraps around
without overflow checks). -/
theorem C38_size_hint_counterexample (d : List ι) :
    (∀ (l : List Span) k, l.length < k →
      (callNext (Cursor.nextSlice d) k (Cursor.new l)).2.sizeHint = none) ∧
    (∀ (l : List (Option Span)) k, l.length < k →
      (callNext (Cursor.nextOptSlice d) k (Cursor.new l)).2.sizeHint = none) := by
  refine ⟨fun l k hk => ?_, fun l k hk => ?_⟩
  · have := callNext_eq _ (fun j => (⟨j, l⟩ : Cursor Span)) _
      (fun j => (rfl : Cursor.nextSlice d ⟨j, l⟩ = ((l[j]?).bind (getBySpan d), ⟨j + 1, l⟩))) k 0
    simp only [Cursor.new, this]
    simp [Cursor.sizeHint, hk]
  · have := callNext_eq _ (fun j => (⟨j, l⟩ : Cursor (Option Span))) _
      (fun j => (rfl : Cursor.nextOptSlice d ⟨j, l⟩ =
        (((l[j]?).bind id).bind (getBySpan d), ⟨j + 1, l⟩))) k 0
    simp only [Cursor.new, this]
    simp [Cursor.sizeHint, hk]

/-- `ArrayStorer`'s iterators do not visit "all spans in a group": a `for` loop
ends at the first unset cell although a later one is set; a further `next()` call
would return it, so the iterator is not fused either. -/
theorem C37_iterators_stop_at_gap_counterexample :
    ∃ v v' : ArrayStorer, (ArrayStorer.new 1 2).setSpan 0 1 ⟨3, 1⟩ = some v ∧
      v.spansIter 0 = some (Cursor.new [none, some ⟨3, 1⟩]) ∧ v.contain 0 = true ∧
      forLoop Cursor.nextOptSpan 1 (Cursor.new [none, some ⟨3, 1⟩]) = some [] ∧
      (callNext Cursor.nextOptSpan 2 (Cursor.new [none, some ⟨3, 1⟩])).1 = [none, some ⟨3, 1⟩] ∧
      v' = v :=
  ⟨_, _, rfl, rfl, rfl, rfl, rfl, rfl⟩

/-- Slices: `slice(value, id, index)` and the slice iterators return the text
`mid` of `value = pre ++ mid ++ post` that the span covers, and nothing for
spans that are out of bounds or cut a character. -/
theorem C38_slice_is_covered_text (d : List ι) (s : Span) (r : List ι) :
    getBySpan d s = some r ↔
      ∃ pre post, d = pre ++ r ++ post ∧ blen pre = s.beg ∧ blen r = s.len := by
  unfold getBySpan
  constructor
  · intro h
    split at h
    · simp at h
    · rename_i l hl
      obtain ⟨pre, h1, h2⟩ := dropB_eq_some.1 hl
      obtain ⟨post, h3, h4⟩ := takeB_eq_some.1 h
      exact ⟨pre, post, by rw [h1, h3, List.append_assoc], h2, h4⟩
  · rintro ⟨pre, post, h1, h2, h3⟩
    have : dropB d s.beg = some (r ++ post) :=
      dropB_eq_some.2 ⟨pre, by rw [h1, List.append_assoc], h2⟩
    rw [this]
    exact takeB_eq_some.2 ⟨post, rfl, h3⟩

end Iterators

/-- Non-vacuity of the iterator theorems: two valid slices and an invalid one. -/
example : forLoop (Cursor.nextSlice ['a', 'b', 'c']) 3
    (Cursor.new [⟨0, 1⟩, ⟨1, 2⟩, ⟨9, 1⟩]) = some [['a'], ['b', 'c']] := by decide

end Neure
