import Verif.PropsSettled
import Verif.PropsUnitFails

/-!
# C24, C88: `times(range)` as a function of the text, and when `times` and unit pairs are decided
-/

set_option linter.unusedSectionVars false
set_option linter.unusedSimpArgs false

namespace Neure

open Demo

/-- The largest number of repetitions a bound permits, if there is one. -/
def Bound.most : Bound → Option Nat
  | .incl m => some m
  | .excl m => some (m - 1)
  | .unb => none

/-- At most so many items of a list. -/
def upToMost {α : Type} (most : Option Nat) (l : List α) : List α :=
  match most with
  | none => l
  | some n => l.take n

variable {ι β : Type} [Item ι] {G : Rules ι β} {pol : Option (Pat ι β)} {d : List ι}

theorem most_allows {b : Bound} (k : Nat) : (∀ m, b.most = some m → k + 1 ≤ m) ↔ b.allowsUpTo (k + 1) := by
  cases b <;> simp [Bound.most, Bound.allowsUpTo] <;> omega

/-- **C24 (plain units, `times`).** `times(range)` on a fair unit without condition, as a function
of the remaining input: the run of accepted items, cut at the upper bound, is the match if its
length is in the range; otherwise it is the error of `times`, at the same position. -/
theorem C24_times_takeWhile (r : CRange) (u : Neu ι) (hf : u.Fair) (pre post : List ι)
    (hd : d = pre ++ post) (res : Res Span) :
    Parses (β := β) G pol d (.times r u .empty) (blen pre) res ↔
      ∃ run, run = upToMost r.hi.most (post.takeWhile u.isMatch) ∧
        ((r.lo.allowsFrom run.length ∧ r.hi.allowsUpTo run.length ∧
            res = .ok ⟨blen pre, blen run⟩ (blen pre + blen run)) ∨
          (¬ (r.lo.allowsFrom run.length ∧ r.hi.allowsUpTo run.length) ∧ res = .err .times (blen pre))) := by
  have hv : Valid d (blen pre) := ⟨pre, post, hd, rfl⟩
  have hg := greedy_takeWhile (β := β) (G := G) (pol := pol) u pre post hd r.hi.most
  have hg := (greedy_congr (Q := r.hi.allowsUpTo) fun k => most_allows k).mp hg
  obtain ⟨left, hg⟩ : ∃ left, GreedyRun (β := β) G pol d (blen pre) u .empty r.hi.allowsUpTo
      (upToMost r.hi.most (post.takeWhile u.isMatch)) left := by
    unfold upToMost
    cases hm : r.hi.most with
    | none => rw [hm] at hg; exact ⟨_, hg⟩
    | some m => rw [hm] at hg; exact ⟨_, hg⟩
  generalize upToMost r.hi.most (post.takeWhile u.isMatch) = run at hg
  constructor
  · intro h
    refine ⟨run, rfl, ?_⟩
    by_cases hc : r.lo.allowsFrom run.length ∧ r.hi.allowsUpTo run.length
    · have := ((C24_times r u hf .empty _ hv).1 _ _).mpr ⟨_, _, hg, hc.1, hc.2, rfl, rfl⟩
      rw [parses_iff] at h this; rw [h] at this; exact .inl ⟨hc.1, hc.2, Option.some.inj this⟩
    · have := (C24_times r u hf .empty _ hv).2.1 _ _ hg hc
      rw [parses_iff] at h this; rw [h] at this; exact .inr ⟨hc, Option.some.inj this⟩
  · rintro ⟨_, rfl, ⟨h1, h2, rfl⟩ | ⟨h, rfl⟩⟩
    · exact ((C24_times r u hf .empty _ hv).1 _ _).mpr ⟨_, _, hg, h1, h2, rfl, rfl⟩
    · exact (C24_times r u hf .empty _ hv).2.1 _ _ hg h

example : Parses (β := Nat) G0 none ['a', 'a', 'a', 'b'] (.times ⟨.incl 1, .excl 3⟩ (.item 'a') .empty) 0
    (.ok ⟨0, 2⟩ 2) ∧ (Neu.item 'a').Fair :=
  ⟨⟨2, by decide⟩, by intro y h; simp [Neu.isMatch] at h; subst h; exact Nat.le_refl _⟩

variable (pre post : List ι) (hd : d = pre ++ post)
include hd

/-- **C88 (`times`).** Decided exactly if the rest of the text has an item that is not accepted, or
so many items that the upper bound permits no more.  The range is one some count lies in. -/
theorem C88_times (r : CRange) (k : Nat) (hk : r.lo.allowsFrom k ∧ r.hi.allowsUpTo k) (u : Neu ι)
    (hf : u.Fair) (a : ι) (ha : u.isMatch a = true) :
    ((∃ res, Settled (β := β) G none d (.times r u .empty) (blen pre) res) ↔
      (∃ y ∈ post, u.isMatch y = false) ∨ ¬ r.hi.allowsUpTo (post.length + 1)) ∧
    ((∃ res, Final (β := β) G none d (.times r u .empty) (blen pre) res) ↔
      (∃ y ∈ post, u.isMatch y = false) ∨ ¬ r.hi.allowsUpTo (post.length + 1)) := by
  have hdr : dropB d (blen pre) = some post := by rw [hd]; exact dropB_append _ _
  have hda : ∀ x, d ++ x = pre ++ (post ++ x) := fun x => by rw [hd, List.append_assoc]
  have sz := Item.size_pos a
  have hkm : ∀ m, r.hi.most = some m → k ≤ m ∧ r.hi.allowsUpTo m := by
    intro m hm
    have := hk.2
    cases h : r.hi <;> simp_all [Bound.most, Bound.allowsUpTo] <;> omega
  have hun : r.hi.most = none → ∀ n, r.hi.allowsUpTo n := by
    intro hm n
    cases h : r.hi <;> simp_all [Bound.most, Bound.allowsUpTo]
  have hmore : ∀ m, r.hi.most = some m → ∀ c, r.more c = decide (c < m) := by
    intro m hm c
    cases h : r.hi <;> simp_all [Bound.most, CRange.more]
  have hmore' : r.hi.most = none → ∀ c, r.more c = true := by
    intro hm c
    cases h : r.hi <;> simp_all [Bound.most, CRange.more]
  refine exactly (fun hc => ?_) (fun res hr => ?_)
  · obtain ⟨s, h1, h3, h2', h2⟩ := scan_plain (d := d) (matWith (parseS G 0) none) (blen pre) u
      r.more post 0 0 none
    have hcnt : s.cnt = (upToMost r.hi.most (post.takeWhile u.isMatch)).length := by
      cases hm : r.hi.most with
      | none => rw [h2' (hmore' hm)]; simp [upToMost]
      | some m => rw [h2 m (hmore m hm)]; simp [upToMost]
    have hE : s.Ended r.more := by
      by_cases hy : ∃ y ∈ post, u.isMatch y = false
      · exact h3 hy
      · have h4 := takeWhile_all hy []
        simp only [List.append_nil, List.takeWhile_nil] at h4
        have h5 := hc.resolve_left hy
        rw [h4] at hcnt
        refine .inr (Bool.eq_false_iff.mpr fun h6 => ?_)
        cases hm : r.hi.most with
        | none => exact h5 (hun hm _)
        | some m =>
          rw [hm] at hcnt
          simp only [upToMost, List.length_take] at hcnt
          rw [hmore m hm] at h6
          have h6 : s.cnt < m := by simpa using h6
          exact h5 ((most_allows _).mp fun m' hm' => by rw [hm] at hm'; cases hm'; omega)
    have fit : ∀ l : List ι, (∀ y ∈ l, u.isMatch y = true) → l.length * u.minLength ≤ blen l := by
      intro l
      induction l with
      | nil => intro _; simp
      | cons b tl ih =>
        intro hl
        have h6 := hf b (hl b List.mem_cons_self)
        have h7 := ih fun y hy => hl y (List.mem_cons_of_mem _ hy)
        simp only [List.length_cons, blen_cons, Nat.succ_mul]; omega
    have mem : ∀ y ∈ upToMost r.hi.most (post.takeWhile u.isMatch), u.isMatch y = true := by
      intro y hy
      have : y ∈ post.takeWhile u.isMatch := by
        unfold upToMost at hy
        split at hy
        · exact hy
        · exact List.mem_of_mem_take hy
      exact List.all_eq_true.mp (List.all_takeWhile (p := u.isMatch) (l := post)) y this
    have fits := fit _ mem
    have le : blen (upToMost r.hi.most (post.takeWhile u.isMatch)) ≤ blen post := by
      have e2 : blen (post.takeWhile u.isMatch) + blen (post.dropWhile u.isMatch) = blen post := by
        rw [← blen_append, List.takeWhile_append_dropWhile]
      unfold upToMost
      split
      · omega
      · next n _ =>
        have e1 : blen ((post.takeWhile u.isMatch).take n) + blen ((post.takeWhile u.isMatch).drop n) =
          blen (post.takeWhile u.isMatch) := by rw [← blen_append, List.take_append_drop]
        omega
    have need : r.lo.allowsFrom s.cnt → r.needed u.minLength ≤ s.cnt * u.minLength := by
      intro h
      unfold CRange.needed
      unfold Bound.allowsFrom at h
      split
      · next m hm => rw [hm] at h; exact Nat.mul_le_mul_right _ h
      · next m hm => rw [hm] at h; exact Nat.mul_le_mul_right _ (by simp at h; omega)
      · omega
    by_cases hm : r.lo.allowsFrom s.cnt ∧ r.hi.allowsUpTo s.cnt
    · refine ⟨_, leaf_settled (fun _ _ _ _ _ _ => rfl) ⟨trivial, post, hdr, .inl ⟨?_, fun s' hs' => ?_⟩⟩
        ((C24_times_takeWhile r u hf pre post hd _).mpr ⟨_, rfl, .inl ⟨hcnt ▸ hm.1, hcnt ▸ hm.2, rfl⟩⟩)⟩
      · have := need hm.1
        rw [hcnt] at this; omega
      · cases h1.symm.trans hs'; exact hE
    · refine ⟨_, leaf_settled (fun _ _ _ _ _ _ => rfl) ⟨trivial, post, hdr, .inr ⟨s, h1, hE, ?_⟩⟩
        ((C24_times_takeWhile r u hf pre post hd _).mpr ⟨_, rfl, .inr ⟨hcnt ▸ hm, rfl⟩⟩)⟩
      exact Bool.eq_false_iff.mpr fun h => hm (contains_iff.mp h)
  · refine Classical.byContradiction fun hc => ?_
    have hc1 : ¬ ∃ y ∈ post, u.isMatch y = false := fun h => hc (.inl h)
    have hc2 : r.hi.allowsUpTo (post.length + 1) := Classical.byContradiction fun h => hc (.inr h)
    have rep : ∀ k, (List.replicate k a).takeWhile u.isMatch = List.replicate k a := by
      intro k; induction k with
      | zero => rfl
      | succ k ih => rw [List.replicate_succ, List.takeWhile_cons, if_pos ha, ih]
    have cut : ∀ j, r.hi.allowsUpTo (post.length + j) →
        upToMost r.hi.most ((post ++ List.replicate j a).takeWhile u.isMatch) = post ++ List.replicate j a := by
      intro j hj
      rw [takeWhile_all hc1, rep]
      unfold upToMost
      split
      · rfl
      · next n hn =>
        refine List.take_of_length_le ?_
        simp only [List.length_append, List.length_replicate]
        cases h : r.hi <;> simp_all [Bound.most, Bound.allowsUpTo] <;> omega
    have val : ∀ j, r.hi.allowsUpTo (post.length + j) → (r.lo.allowsFrom (post.length + j) ∧
        res = .ok ⟨blen pre, blen (post ++ List.replicate j a)⟩ (blen pre + blen (post ++ List.replicate j a))) ∨
        (¬ r.lo.allowsFrom (post.length + j) ∧ res = .err .times (blen pre)) := by
      intro j hj
      obtain ⟨run, rfl, h⟩ := (C24_times_takeWhile r u hf pre _ (hda (List.replicate j a)) res).mp (hr _)
      rw [cut j hj] at h
      simp only [List.length_append, List.length_replicate] at h
      rcases h with ⟨h1, _, h2⟩ | ⟨h1, h2⟩
      · exact .inl ⟨h1, h2⟩
      · exact .inr ⟨fun h => h1 ⟨h, hj⟩, h2⟩
    have up : ∀ {b : Bound} {i j : Nat}, i ≤ j → b.allowsFrom i → b.allowsFrom j := by
      intro b i j hij h
      cases b <;> simp_all [Bound.allowsFrom] <;> omega
    have len : ∀ j, j ≤ blen (List.replicate j a) := fun j => blen_replicate j a
    -- a continuation that makes the run long enough, and one item more than now
    have v0 := val 0 (Bound.allowsUpTo_mono (Nat.le_succ _) hc2)
    have v1 := val 1 hc2
    rcases v0 with ⟨l0, e0⟩ | ⟨l0, e0⟩
    · rcases v1 with ⟨_, e1⟩ | ⟨l1, _⟩
      · rw [e0] at e1
        simp at e1
        omega
      · exact l1 (up (Nat.le_succ _) l0)
    · by_cases hle : k ≤ post.length
      · exact l0 (up hle hk.1)
      · have hj : post.length + (k - post.length) = k := by omega
        rcases val (k - post.length) (by rw [hj]; exact hk.2) with ⟨_, e2⟩ | ⟨l2, _⟩
        · rw [e0] at e2; cases e2
        · rw [hj] at l2; exact l2 hk.1

/-- **C88 (unit pairs).** `a.then(b)` is decided exactly if two items are there, or one that the
first unit does not accept. -/
theorem C88_pair (u v : Neu ι) (hu : u.Fair) (hv : v.Fair) (a b : ι) (ha : u.isMatch a = true)
    (hb : v.isMatch b = true) :
    ((∃ res, Settled (β := β) G none d (.thenU u v .empty) (blen pre) res) ↔
      2 ≤ post.length ∨ ∃ x rest, post = x :: rest ∧ u.isMatch x = false) ∧
    ((∃ res, Final (β := β) G none d (.thenU u v .empty) (blen pre) res) ↔
      2 ≤ post.length ∨ ∃ x rest, post = x :: rest ∧ u.isMatch x = false) := by
  have hdr : dropB d (blen pre) = some post := by rw [hd]; exact dropB_append _ _
  have hda : ∀ x, d ++ x = pre ++ (post ++ x) := fun x => by rw [hd, List.append_assoc]
  have returns : ∃ res, Parses (β := β) G none d (.thenU u v .empty) (blen pre) res ∧ res ≠ .panic := by
    match h : post with
    | [] => exact ⟨_, (C25_unit_then_fails u v .empty pre [] hd .neureThen _).mpr ⟨rfl, .inl ⟨rfl, .inl (by simp)⟩⟩, by simp⟩
    | [x] => exact ⟨_, (C25_unit_then_fails u v .empty pre [x] hd .neureThen _).mpr ⟨rfl, .inl ⟨rfl, .inl (by simp)⟩⟩, by simp⟩
    | x :: y :: tl =>
      by_cases hm : u.minLength + v.minLength ≤ blen (x :: y :: tl)
      · cases hx : u.isMatch x with
        | false => exact ⟨_, (C25_unit_then_fails u v .empty pre _ hd .neureThen _).mpr
            ⟨rfl, .inr ⟨x, y, tl, rfl, hm, .inl ⟨itemGives_empty.mpr hx, rfl⟩⟩⟩, by simp⟩
        | true =>
          cases hy : v.isMatch y with
          | false => exact ⟨_, (C25_unit_then_fails u v .empty pre _ hd .neureThen _).mpr
              ⟨rfl, .inr ⟨x, y, tl, rfl, hm, .inr (.inr ⟨itemGives_empty.mpr hx,
                .inl ⟨itemGives_empty.mpr hy, rfl⟩⟩)⟩⟩, by simp⟩
          | true => exact ⟨_, (C25_unit_then u v hu hv .empty pre _ hd _ _).mpr
              ⟨x, y, tl, rfl, itemGives_empty.mpr hx, itemGives_empty.mpr hy, rfl, rfl⟩, by simp⟩
      · exact ⟨_, (C25_unit_then_fails u v .empty pre _ hd .neureThen _).mpr
          ⟨rfl, .inl ⟨rfl, .inr (by omega)⟩⟩, by simp⟩
  refine exactly (fun hc => ?_) (fun res hr => ?_)
  · obtain ⟨res, hres, _⟩ := returns
    refine ⟨res, leaf_settled (fun _ _ _ _ _ _ => rfl) ⟨trivial, ?_⟩ hres⟩
    match h : post, hdr with
    | [], _ => rcases hc with hc | ⟨_, _, hc, _⟩ <;> simp at hc
    | x :: tl, hdr =>
      cases hx : u.isMatch x with
      | false => exact .inr ⟨x, tl, hdr, by simp [testItem, hx]⟩
      | true =>
        match tl, hdr with
        | [], _ =>
          rcases hc with hc | ⟨y, _, hc, hn⟩
          · simp at hc
          · cases hc; rw [hx] at hn; cases hn
        | y :: tl', hdr =>
          refine .inl ⟨x, y, tl', hdr, ?_⟩
          cases hy : v.isMatch y with
          | false => exact .inr ⟨by simp [testItem, hx, check], by simp [testItem, hy]⟩
          | true =>
            have := hu x hx
            have := hv y hy
            exact .inl (by simp only [blen_cons]; omega)
  · refine Classical.byContradiction fun hc => ?_
    have short : Parses (β := β) G none (d ++ []) (.thenU u v .empty) (blen pre) (.err .neureThen (blen pre)) :=
      (C25_unit_then_fails u v .empty pre _ (hda []) .neureThen _).mpr
        ⟨rfl, .inl ⟨rfl, .inl (by
          rw [List.append_nil]
          exact Nat.lt_of_not_le fun h => hc (.inl h))⟩⟩
    have e0 := parses_unique (hr []) short
    have long : ∃ x s o', Parses (β := β) G none (d ++ x) (.thenU u v .empty) (blen pre) (.ok s o') := by
      match h : post with
      | [] =>
        exact ⟨[a, b], _, _, (C25_unit_then u v hu hv .empty pre _ (hda [a, b]) _ _).mpr
          ⟨a, b, [], by simp [h], itemGives_empty.mpr ha, itemGives_empty.mpr hb, rfl, rfl⟩⟩
      | [x] =>
        have hx : u.isMatch x = true := by
          cases hx : u.isMatch x with
          | true => rfl
          | false => exact absurd (.inr ⟨x, [], rfl, hx⟩) hc
        exact ⟨[b], _, _, (C25_unit_then u v hu hv .empty pre _ (hda [b]) _ _).mpr
          ⟨x, b, [], by simp [h], itemGives_empty.mpr hx, itemGives_empty.mpr hb, rfl, rfl⟩⟩
      | x :: y :: tl => exact absurd (.inl (by simp [h])) hc
    obtain ⟨x, s, o', hl⟩ := long
    have e1 := parses_unique (hr x) hl
    rw [e0] at e1; cases e1

omit hd

/-- **C88 (never asking).** `start`, `empty` and `fail` are always decided. -/
theorem C88_always (o : Nat) :
    (∃ r, Settled (β := β) G none d .start o r) ∧ (∃ r, Settled (β := β) G none d .empty o r) ∧
    ∃ r, Settled (β := β) G none d .fail o r := by
  refine ⟨?_, ⟨_, leaf_settled (fun _ _ _ _ _ _ => rfl) trivial ⟨1, rfl⟩⟩,
    ⟨_, leaf_settled (fun _ _ _ _ _ _ => rfl) trivial ⟨1, rfl⟩⟩⟩
  by_cases h : o = 0
  · exact ⟨_, leaf_settled (fun _ _ _ _ _ _ => rfl) trivial ⟨1, by simp only [parse, step]; rw [if_pos h]⟩⟩
  · exact ⟨_, leaf_settled (fun _ _ _ _ _ _ => rfl) trivial ⟨1, by simp only [parse, step]; rw [if_neg h]⟩⟩

example : ∃ r, Settled (β := Nat) G0 none ['a', 'a'] (.times ⟨.incl 1, .incl 2⟩ (.item 'a') .empty) 0 r :=
  (C88_times [] ['a', 'a'] rfl ⟨.incl 1, .incl 2⟩ 1 (by simp [Bound.allowsFrom, Bound.allowsUpTo]) (.item 'a')
    (by intro y h; simp [Neu.isMatch] at h; subst h; exact Nat.le_refl _) 'a' (by decide)).1.mpr
    (.inr (by simp [Bound.allowsUpTo]))

example : ¬ ∃ r, Final (β := Nat) G0 none ['a'] (.thenU (.item 'a') (.item 'b') .empty) 0 r := by
  intro hr
  rcases (C88_pair (G := G0) (β := Nat) (d := ['a']) [] ['a'] rfl (.item 'a') (.item 'b')
    (by intro y h; simp [Neu.isMatch] at h; subst h; exact Nat.le_refl _)
    (by intro y h; simp [Neu.isMatch] at h; subst h; exact Nat.le_refl _) 'a' 'b' (by decide) (by decide)).2.mp hr with
    h | ⟨x, rest, h, h'⟩
  · simp at h
  · cases h; simp [Neu.isMatch] at h'

end Neure
