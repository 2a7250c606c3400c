import Verif.PropsSweep
/-!
# C103: a contiguous sequence of words, items or runs

`match_seq` with a literal gives the copies of the word that stand at the position, with one item the
leading items that are accepted, with one or more items the one leading run.
-/

namespace Neure

set_option linter.unusedSectionVars false
set_option linter.unusedSimpArgs false

open Demo

variable {ι β : Type} [Item ι] {G : Rules ι β} {d : List ι} {p : Pat ι β} {α : Type}

namespace Sweep

/-! ## Lemmas -/

theorem seqs_unique {x : Extract ι α} {o : Nat} {r r' : Res (List α)}
    (h : MatchSeqs G none d p x o r) (h' : MatchSeqs G none d p x o r') : r = r' := by
  obtain ⟨n, h⟩ := h
  obtain ⟨m, h'⟩ := h'
  have hm : ∀ o, Mono fun n => seqNext G none d p x n o :=
    fun o => findLoop_mono (fun o => tryMat_mono G none d p o) o
  have a := FindUtf8.drain_le hm n (n + m) n (n + m) o r (by omega) (by omega) h
  have b := FindUtf8.drain_le hm m (n + m) m (n + m) o r' (by omega) (by omega) h'
  rw [a] at b
  exact Option.some.inj b

theorem seqs_stop (hp : All G Tidy p) (hb : All G (Bounded G none) p) (ha : All G Aligned p) {pre t : List ι}
    (h : NoHit G none (pre ++ t) p (blen pre)) :
    MatchSeqs G none (pre ++ t) p .slice (blen pre) (.ok [] (blen (pre ++ t))) := by
  rw [seqs_nil, (seqNext_iff hp (extractable_slice hb ha) _ _).2]
  refine ⟨fun _ => h, ?_⟩
  simp

theorem seqs_hit (hp : All G Tidy p) (hb : All G (Bounded G none) p) (ha : All G Aligned p) {pre hit t : List ι}
    {l : List (List ι)} {e : Nat} (hh : hit ≠ [])
    (hr : Runs G none (pre ++ hit ++ t) p (blen pre) (.ok ⟨blen pre, blen hit⟩ (blen pre + blen hit)))
    (h : MatchSeqs G none (pre ++ hit ++ t) p .slice (blen (pre ++ hit)) (.ok l e)) :
    MatchSeqs G none (pre ++ hit ++ t) p .slice (blen pre) (.ok (hit :: l) e) := by
  have hpos := blen_pos_of_ne_nil hh
  rw [seqs_cons]
  refine ⟨_, ?_, h⟩
  rw [(seqNext_iff hp (extractable_slice hb ha) _ _).1]
  refine ⟨by simp only [blen_append]; omega, ⟨blen pre, blen hit⟩, ⟨by rw [blen_append]; exact hr, by simp only; omega⟩,
    slice_val _ _ _⟩

end Sweep

open Sweep

/-! ## The property -/

/-- **C103 (copies of a word).** Where `k` copies of a word and no more stand, `match_seq` gives `k` copies. -/
theorem C103_match_seq_literal (w pre rest : List ι) (k : Nat) (hw : w ≠ []) (hr : ¬ w <+: rest) (r : Res (List (List ι))) :
    MatchSeqs G none (pre ++ ((List.replicate k w).flatten ++ rest)) (.lit w) .slice (blen pre) r ↔
      r = .ok (List.replicate k w) (blen (pre ++ ((List.replicate k w).flatten ++ rest))) := by
  have hp : All G Tidy (.lit w) := All.intro trivial fun q h => h.elim
  have hb : All G (Bounded G none) (.lit w) := All.intro trivial fun q h => h.elim
  have ha : All G Aligned (.lit w) := All.intro trivial fun q h => h.elim
  have key : MatchSeqs G none (pre ++ ((List.replicate k w).flatten ++ rest)) (.lit w) .slice (blen pre)
      (.ok (List.replicate k w) (blen (pre ++ ((List.replicate k w).flatten ++ rest)))) := by
    induction k generalizing pre with
    | zero =>
      refine seqs_stop hp hb ha (.inl ⟨.literal, _, (C12_literal (G := G) (pol := none) pre _ w rfl _).mpr (.inr ⟨?_, rfl⟩)⟩)
      rintro ⟨u, hu⟩
      exact hr ⟨u, by simpa using hu.symm⟩
    | succ k ih =>
      have e : pre ++ ((List.replicate (k + 1) w).flatten ++ rest) =
          pre ++ w ++ ((List.replicate k w).flatten ++ rest) := by
        simp [List.replicate_succ]
      rw [e, List.replicate_succ]
      refine seqs_hit hp hb ha hw ?_ (ih (pre ++ w))
      rw [List.append_assoc]
      exact (C12_literal (G := G) (pol := none) pre _ w rfl _).mpr (.inl ⟨⟨_, rfl⟩, rfl⟩)
  exact ⟨fun h => seqs_unique h key, fun h => h ▸ key⟩

/-- **C103 (leading items).** `match_seq` with one item gives the items before the first that is not accepted. -/
theorem C103_match_seq_once (u : Neu ι) (pre t : List ι) (r : Res (List (List ι))) :
    MatchSeqs G none (pre ++ t) (.once u .empty) .slice (blen pre) r ↔
      r = .ok ((t.takeWhile u.isMatch).map fun x => [x]) (blen (pre ++ t)) := by
  have hp : All G Tidy (.once u .empty) := All.intro trivial fun q h => by simp [Child, Cond.Has] at h
  have hb : All G (Bounded G none) (.once u .empty) := All.intro trivial fun q h => by simp [Child, Cond.Has] at h
  have ha : All G Aligned (.once u .empty) := All.intro trivial fun q h => by simp [Child, Cond.Has] at h
  have key : MatchSeqs G none (pre ++ t) (.once u .empty) .slice (blen pre)
      (.ok ((t.takeWhile u.isMatch).map fun x => [x]) (blen (pre ++ t))) := by
    induction t generalizing pre with
    | nil => exact seqs_stop hp hb ha ((once_at u pre []).1 rfl)
    | cons x t ih =>
      by_cases h : u.isMatch x = true
      · have h1 := ih (pre ++ [x])
        have h2 := (once_at (G := G) u pre (x :: t)).2 (by simp [oneWide, h])
        have e : pre ++ x :: t = pre ++ [x] ++ t := by simp
        rw [List.takeWhile_cons_of_pos h, List.map_cons, e]
        rw [e] at h2
        exact seqs_hit hp hb ha (by simp) (by simpa [oneWide, h] using h2) h1
      · rw [List.takeWhile_cons_of_neg h]
        exact seqs_stop hp hb ha ((once_at u pre _).1 (by simp [oneWide, h]))
  exact ⟨fun h => seqs_unique h key, fun h => h ▸ key⟩

/-- **C103 (leading run).** `match_seq` with one or more items gives the leading run, if there is one, and no other. -/
theorem C103_match_seq_many1 (u : Neu ι) (pre t : List ι) (r : Res (List (List ι))) :
    MatchSeqs G none (pre ++ t) (.many1 u .empty) .slice (blen pre) r ↔
      r = .ok (if t.takeWhile u.isMatch = [] then [] else [t.takeWhile u.isMatch]) (blen (pre ++ t)) := by
  have hp : All G Tidy (.many1 u .empty) := All.intro trivial fun q h => by simp [Child, Cond.Has] at h
  have hb : All G (Bounded G none) (.many1 u .empty) := All.intro trivial fun q h => by simp [Child, Cond.Has] at h
  have ha : All G Aligned (.many1 u .empty) := All.intro trivial fun q h => by simp [Child, Cond.Has] at h
  have key : MatchSeqs G none (pre ++ t) (.many1 u .empty) .slice (blen pre)
      (.ok (if t.takeWhile u.isMatch = [] then [] else [t.takeWhile u.isMatch]) (blen (pre ++ t))) := by
    split
    · next h => exact seqs_stop hp hb ha ((many1_at u pre t).1 (by rw [h]; rfl))
    · next h =>
      have e : pre ++ t = pre ++ t.takeWhile u.isMatch ++ t.dropWhile u.isMatch := by
        rw [List.append_assoc, List.takeWhile_append_dropWhile]
      have h2 := (C23_many1_takeWhile (β := β) (G := G) (pol := none) u pre t rfl
        (.ok ⟨blen pre, blen (t.takeWhile u.isMatch)⟩ (blen pre + blen (t.takeWhile u.isMatch)))).mpr (by rw [if_neg h])
      rw [e]
      rw [e] at h2
      refine seqs_hit hp hb ha h h2 (seqs_stop hp hb ha ((many1_at u _ _).1 ?_))
      cases hd : t.dropWhile u.isMatch with
      | nil => rfl
      | cons y s =>
        have : ¬ u.isMatch y = true := by
          have := List.head?_dropWhile_not u.isMatch t
          rw [hd] at this
          simpa using this
        rw [List.takeWhile_cons_of_neg this]; rfl
  exact ⟨fun h => seqs_unique h key, fun h => h ▸ key⟩

/-- Two copies of `ab` before `a`; the leading letters; the leading run only. -/
example : MatchSeqs (β := Nat) G0 none ['a', 'b', 'a', 'b', 'a'] (.lit ['a', 'b']) .slice 0
      (.ok [['a', 'b'], ['a', 'b']] 5) ∧
    MatchSeqs (β := Nat) G0 none ['é', 'é', ' ', 'é'] (.once (.equal 'é') .empty) .slice 0 (.ok [['é'], ['é']] 7) ∧
    MatchSeqs (β := Nat) G0 none ['é', 'é', ' ', 'é'] (.many1 (.equal 'é') .empty) .slice 0 (.ok [['é', 'é']] 7) :=
  ⟨(C103_match_seq_literal (G := G0) ['a', 'b'] [] ['a'] 2 (by decide) (by decide) _).mpr rfl,
    (C103_match_seq_once (G := G0) (.equal 'é') [] ['é', 'é', ' ', 'é'] _).mpr (by decide),
    (C103_match_seq_many1 (G := G0) (.equal 'é') [] ['é', 'é', ' ', 'é'] _).mpr (by decide)⟩

end Neure
