import Verif.WorkSpec
import Verif.ImpRel
import Verif.CtorTerm
/-!
# Counting calls: lemmas
-/

namespace Neure

set_option linter.unusedSectionVars false

variable {ι β σ α γ : Type} [Item ι] {G : Rules ι β} {H : Handler ι β σ}

/-! ## The counter is only a counter -/

theorem tick_bind {x : M (σ × Nat) α} (s : σ) (k o : Nat) :
    (tick >>= fun _ => x) (s, k) o = x (s, k + 1) o := rfl

/-- Forgetting the counter. -/
theorem work_erase (G : Rules ι β) : ∀ (n : Nat) (pol : Option (Pat ι β)) (d : List ι) (p : Pat ι β),
    MRel (fun (a : σ × Nat) b => a.1 = b) (workParse G n pol d p) (impParse G n pol d p)
  | 0 => fun _ _ _ _ _ _ _ => trivial
  | n + 1 => by
    intro pol d p s t o h
    have ih := work_erase G n
    exact rel_step (fun d q => rel_mat ih pol d q) (Nat.le_refl n) (fun q => ih pol d q) p (s.1, s.2 + 1) t o h

/-- Adding a counter. -/
theorem work_add (G : Rules ι β) : ∀ (n : Nat) (pol : Option (Pat ι β)) (d : List ι) (p : Pat ι β),
    MRel (fun b (a : σ × Nat) => a.1 = b) (impParse G n pol d p) (workParse G n pol d p)
  | 0 => fun _ _ _ _ _ _ _ => trivial
  | n + 1 => by
    intro pol d p s t o h
    have ih := work_add G n
    exact rel_step (fun d q => rel_mat ih pol d q) (Nat.le_refl n) (fun q => ih pol d q) p s (t.1, t.2 + 1) o h

/-- More fuel and a later start of the counter. -/
theorem work_mono (G : Rules ι β) (j : Nat) : ∀ {n m : Nat} (_ : n ≤ m) (pol : Option (Pat ι β)) (d : List ι)
    (p : Pat ι β), MRel (fun (a b : σ × Nat) => b = (a.1, a.2 + j)) (workParse G n pol d p) (workParse G m pol d p)
  | 0, _, _ => fun _ _ _ _ _ _ _ => trivial
  | n + 1, 0, h => by omega
  | n + 1, m + 1, hn => by
    intro pol d p s t o h
    have ih := work_mono G j (show n ≤ m by omega)
    exact rel_step (fun d q => rel_mat ih pol d q) (show n ≤ m by omega) (fun q => ih pol d q) p
      (s.1, s.2 + 1) (t.1, t.2 + 1) o (by subst h; simp; omega)

theorem workCon_erase (G : Rules ι β) (H : Handler ι β σ) : ∀ (n : Nat) (pol : Option (Pat ι β)) (d : List ι)
    (p : Pat ι β), MRel (fun (a : σ × Nat) b => a.1 = b) (workCon G H n pol d p) (impCon G H n pol d p)
  | 0 => fun _ _ _ _ _ _ _ => trivial
  | n + 1 => by
    intro pol d p s t o h
    exact rel_conStep (H := H.beside) (H' := H) (fun o sp s t h => by subst h; exact ⟨rfl, rfl⟩)
      (fun q => rel_mat (work_erase G n) pol d q) (rel_mat (work_erase G (n + 1)) pol d p)
      (fun q => workCon_erase G H n pol d q) (Nat.le_refl n) p (s.1, s.2 + 1) t o h

theorem workCon_add (G : Rules ι β) (H : Handler ι β σ) : ∀ (n : Nat) (pol : Option (Pat ι β)) (d : List ι)
    (p : Pat ι β), MRel (fun b (a : σ × Nat) => a.1 = b) (impCon G H n pol d p) (workCon G H n pol d p)
  | 0 => fun _ _ _ _ _ _ _ => trivial
  | n + 1 => by
    intro pol d p s t o h
    exact rel_conStep (H := H) (H' := H.beside) (fun o sp s t h => by subst h; exact ⟨rfl, rfl⟩)
      (fun q => rel_mat (work_add G n) pol d q) (rel_mat (work_add G (n + 1)) pol d p)
      (fun q => workCon_add G H n pol d q) (Nat.le_refl n) p s (t.1, t.2 + 1) o h

theorem workCon_mono (G : Rules ι β) (H : Handler ι β σ) (j : Nat) : ∀ {n m : Nat} (_ : n ≤ m)
    (pol : Option (Pat ι β)) (d : List ι) (p : Pat ι β),
    MRel (fun (a b : σ × Nat) => b = (a.1, a.2 + j)) (workCon G H n pol d p) (workCon G H m pol d p)
  | 0, _, _ => fun _ _ _ _ _ _ _ => trivial
  | n + 1, 0, h => by omega
  | n + 1, m + 1, hn => by
    intro pol d p s t o h
    exact rel_conStep (H := H.beside) (H' := H.beside) (fun o sp s t h => by subst h; exact ⟨rfl, rfl⟩)
      (fun q => rel_mat (work_mono G j (by omega)) pol d q) (rel_mat (work_mono G j hn) pol d p)
      (fun q => workCon_mono G H j (by omega) pol d q) (show n ≤ m by omega) p (s.1, s.2 + 1) (t.1, t.2 + 1) o
      (by subst h; simp; omega)

/-! ## What holds when a body returns -/

/-- If `x`, started in `s` at `o`, returns, then `Q` holds of what it returns. -/
def WP (x : M σ α) (Q : α → σ → Nat → Prop) (s : σ) (o : Nat) : Prop :=
  ∀ a s' o', x s o = some (.done a s' o') → Q a s' o'

def GWP (x : GM σ α) (Q : Except Error α → Guard → σ → Nat → Prop) (g : Guard) (s : σ) (o : Nat) : Prop :=
  ∀ a g' s' o', x g s o = some (.done a g' s' o') → Q a g' s' o'

namespace WP
variable {Q : α → σ → Nat → Prop} {s : σ} {o : Nat}

theorem pure_ {a : α} (h : Q a s o) : WP (pure a) Q s o := by rintro _ _ _ ⟨⟩; exact h

theorem bind_ {x : M σ γ} {f : γ → M σ α} (h : WP x (fun a s o => WP (f a) Q s o) s o) :
    WP (x >>= f) Q s o := by
  intro a s' o' hr
  rw [M.bind_app] at hr
  cases hx : x s o with
  | none => rw [hx] at hr; cases hr
  | some v => cases v with
    | panic => rw [hx] at hr; cases hr
    | done b s1 o1 => rw [hx] at hr; exact h b s1 o1 hx a s' o' hr

theorem mono {x : M σ α} {Q' : α → σ → Nat → Prop} (h : WP x Q' s o) (h' : ∀ a s o, Q' a s o → Q a s o) :
    WP x Q s o := fun a s' o' hr => h' _ _ _ (h a s' o' hr)

theorem offset_ {Q : Nat → σ → Nat → Prop} (h : Q o s o) : WP offset Q s o := by rintro _ _ _ ⟨⟩; exact h
theorem setOffset_ {Q : Unit → σ → Nat → Prop} {n : Nat} (h : Q () s n) : WP (setOffset n) Q s o := by
  rintro _ _ _ ⟨⟩; exact h
theorem panic__ : WP panic_ Q s o := by rintro _ _ _ ⟨⟩

theorem peekCtx_ {Q : Except Error α → σ → Nat → Prop} {f : Nat → Out α}
    (h : ∀ r, (∀ a, r = .ok a → f o = .ok a) → Q r s o) : WP (peekCtx f) Q s o := by
  intro a s' o' hr
  unfold peekCtx at hr
  cases hf : f o <;> rw [hf] at hr <;> cases hr <;> refine h _ fun a ha => ?_
  · cases ha; exact hf
  · cases ha

theorem moveCtx_ {Q : Except Error α → σ → Nat → Prop} {f : Nat → Res α} (h : ∀ a o', f o = .ok a o' → Q (.ok a) s o')
    (h' : ∀ e o', f o = .err e o' → Q (.error e) s o') : WP (moveCtx f) Q s o := by
  intro a s' o' hr
  unfold moveCtx at hr
  cases hf : f o <;> rw [hf] at hr <;> cases hr
  · exact h _ _ hf
  · exact h' _ _ hf

theorem addAssign_ {Q : Span → σ → Nat → Prop} {a b : Span} (h : ∀ r, Q r s o) : WP (addAssign a b) Q s o := by
  unfold addAssign; split
  · exact pure_ (h _)
  · exact panic__

theorem inspectErr_ {Q : Except Error α → σ → Nat → Prop} {r : Except Error α} {n : Nat}
    (h : ∀ a, r = .ok a → Q r s o) (h' : ∀ e, r = .error e → Q r s n) : WP (inspectErr r n) Q s o := by
  unfold inspectErr
  cases r with
  | ok a => exact pure_ (h a rfl)
  | error e => exact bind_ (setOffset_ (pure_ (h' e rfl)))

theorem guarded_ {Q : Except Error α → σ → Nat → Prop} {x : GM σ α}
    (h : GWP x (fun r g s o' => Q r s (if g.reset then g.offset else o')) ⟨o, false⟩ s o) :
    WP (guarded x) Q s o := by
  intro a s' o' hr
  unfold guarded at hr
  cases hx : x ⟨o, false⟩ s o with
  | none => rw [hx] at hr; cases hr
  | some v => cases v with
    | panic => rw [hx] at hr; cases hr
    | done b g s1 o1 => rw [hx] at hr; cases hr; exact h _ _ _ _ hx

theorem function_ {Q : Except Error α → σ → Nat → Prop} {x : GM σ α}
    (h : GWP x (fun r _ s o' => Q r s o') ⟨o, false⟩ s o) : WP (function x) Q s o := by
  intro a s' o' hr
  unfold function at hr
  cases hx : x ⟨o, false⟩ s o with
  | none => rw [hx] at hr; cases hr
  | some v => cases v with
    | panic => rw [hx] at hr; cases hr
    | done b g s1 o1 => rw [hx] at hr; cases hr; exact h _ _ _ _ hx

theorem onClone_ {x : M σ α} (h : WP x (fun a s _ => Q a s o) s 0) : WP (onClone x) Q s o := by
  intro a s' o' hr
  unfold onClone at hr
  cases hx : x s 0 with
  | none => rw [hx] at hr; cases hr
  | some v => cases v with
    | panic => rw [hx] at hr; cases hr
    | done b s1 o1 => rw [hx] at hr; cases hr; exact h _ _ _ hx

end WP

namespace GWP
variable {g : Guard} {s : σ} {o : Nat}

theorem pure_ {Q : Except Error α → Guard → σ → Nat → Prop} {a : α} (h : Q (.ok a) g s o) : GWP (pure a) Q g s o := by
  rintro _ _ _ _ ⟨⟩; exact h

theorem bind_ {Q : Except Error α → Guard → σ → Nat → Prop} {x : GM σ γ} {f : γ → GM σ α}
    (h : GWP x (fun r g s o => (∀ a, r = .ok a → GWP (f a) Q g s o) ∧ ∀ e, r = .error e → Q (.error e) g s o) g s o) :
    GWP (x >>= f) Q g s o := by
  intro a g' s' o' hr
  rw [GM.bind_app] at hr
  cases hx : x g s o with
  | none => rw [hx] at hr; cases hr
  | some v => cases v with
    | panic => rw [hx] at hr; cases hr
    | done b g1 s1 o1 =>
      rw [hx] at hr
      cases b with
      | ok b => exact (h _ _ _ _ hx).1 b rfl a g' s' o' hr
      | error e => cases hr; exact (h _ _ _ _ hx).2 e rfl

theorem mono {Q Q' : Except Error α → Guard → σ → Nat → Prop} {x : GM σ α} (h : GWP x Q' g s o)
    (h' : ∀ a g s o, Q' a g s o → Q a g s o) : GWP x Q g s o :=
  fun a g' s' o' hr => h' _ _ _ _ (h a g' s' o' hr)

theorem call_ {Q : Except Error α → Guard → σ → Nat → Prop} {x : M σ α}
    (h : WP x (fun a s o => Q (.ok a) g s o) s o) : GWP (GM.call x) Q g s o := by
  intro a g' s' o' hr
  unfold GM.call at hr
  cases hx : x s o with
  | none => rw [hx] at hr; cases hr
  | some v => cases v with
    | panic => rw [hx] at hr; cases hr
    | done b s1 o1 => rw [hx] at hr; cases hr; exact h _ _ _ hx

theorem tryMat_ {Q : Except Error (Except Error α) → Guard → σ → Nat → Prop} {x : M σ (Except Error α)}
    (h : WP x (fun a s o => Q (.ok a) (if isOk a then g else { g with reset := true }) s o) s o) :
    GWP (GM.tryMat x) Q g s o := by
  intro a g' s' o' hr
  unfold GM.tryMat at hr
  cases hx : x s o with
  | none => rw [hx] at hr; cases hr
  | some v => cases v with
    | panic => rw [hx] at hr; cases hr
    | done b s1 o1 => rw [hx] at hr; cases hr; exact h _ _ _ hx

theorem try__ {Q : Except Error α → Guard → σ → Nat → Prop} {r : Except Error α} (h : Q r g s o) :
    GWP (GM.try_ r) Q g s o := by rintro _ _ _ _ ⟨⟩; exact h
theorem beg_ {Q : Except Error Nat → Guard → σ → Nat → Prop} (h : Q (.ok g.offset) g s o) : GWP GM.beg Q g s o := by
  rintro _ _ _ _ ⟨⟩; exact h
theorem processRet_ {Q : Except Error (Except Error α) → Guard → σ → Nat → Prop} {r : Except Error α}
    (h : Q (.ok r) (if isOk r then g else { g with reset := true }) s o) : GWP (GM.processRet r) Q g s o := by
  rintro _ _ _ _ ⟨⟩; exact h

end GWP

/-! ## Counting the calls of a body -/

/-- Up to offset `L`, `x` makes at most `w` calls, and moves forward and stays inside. -/
def Spends (L : Nat) (x : M (σ × Nat) (Except Error α)) (w : Nat) : Prop :=
  ∀ s o, o ≤ L → WP x (fun _ s' o' => s'.2 ≤ s.2 + w ∧ o ≤ o' ∧ o' ≤ L) s o

/-- A success moves. -/
def Advances (L : Nat) (x : M (σ × Nat) (Except Error α)) : Prop :=
  ∀ s o, o ≤ L → WP x (fun r _ o' => ∀ a, r = .ok a → o < o') s o

theorem Spends.use {L : Nat} {x : M (σ × Nat) (Except Error α)} {w : Nat} {Q : Except Error α → σ × Nat → Nat → Prop}
    {s : σ × Nat} {o : Nat} (h : Spends L x w) (ho : o ≤ L)
    (h' : ∀ r s' o', s'.2 ≤ s.2 + w → o ≤ o' → o' ≤ L → Q r s' o') : WP x Q s o :=
  (h s o ho).mono fun r s' o' ⟨h1, h2, h3⟩ => h' r s' o' h1 h2 h3

theorem Spends.use' {L : Nat} {x : M (σ × Nat) (Except Error α)} {w : Nat} {Q : Except Error α → σ × Nat → Nat → Prop}
    {s : σ × Nat} {o : Nat} (h : Spends L x w) (ha : Advances L x) (ho : o ≤ L)
    (h' : ∀ r s' o', s'.2 ≤ s.2 + w → o ≤ o' → o' ≤ L → (∀ a, r = .ok a → o < o') →
      (isOk r = true → o < o') → Q r s' o') : WP x Q s o :=
  fun r s' o' hr => let ⟨h1, h2, h3⟩ := h s o ho r s' o' hr
    h' r s' o' h1 h2 h3 (ha s o ho r s' o' hr) fun hk => by
      cases r with
      | ok a => exact ha s o ho _ s' o' hr a rfl
      | error e => cases hk

theorem WP.loop_ {T : Type} {L c : Nat} {body : T → M (σ × Nat) (T × Bool)} (μ : T → Nat → Nat)
    (h : ∀ t s o, o ≤ L → WP (body t) (fun r s' o' => s'.2 ≤ s.2 + c ∧ o' ≤ L ∧
      (r.2 = true → μ r.1 o' < μ t o)) s o) :
    ∀ (fuel : Nat) (t : T) (s : σ × Nat) (o : Nat), o ≤ L →
      WP (loop body fuel t) (fun _ s' o' => s'.2 ≤ s.2 + (μ t o + 1) * c ∧ o' ≤ L) s o
  | 0, _, _, _, _ => by rintro _ _ _ ⟨⟩
  | fuel + 1, t, s, o, ho => by
    unfold loop
    refine WP.bind_ ((h t s o ho).mono fun ⟨t', more⟩ s' o' ⟨h1, h2, h3⟩ => ?_)
    cases more with
    | false =>
      refine WP.pure_ ⟨?_, h2⟩
      have : 1 * c ≤ (μ t o + 1) * c := Nat.mul_le_mul_right _ (by omega)
      omega
    | true =>
      refine (WP.loop_ μ h fuel t' s' o' h2).mono fun _ s2 o2 ⟨h4, h5⟩ => ⟨?_, h5⟩
      have h3 := h3 rfl
      simp only at h3
      have : (μ t' o' + 1) * c + c ≤ (μ t o + 1) * c := by
        rw [← Nat.succ_mul]; exact Nat.mul_le_mul_right _ (by omega)
      omega

theorem WP.forIn__ {T A : Type} {L c : Nat} {body : T → A → M (σ × Nat) (A × Bool)} {l : List T}
    (h : ∀ x ∈ l, ∀ a s o, o ≤ L → WP (body x a) (fun _ s' o' => s'.2 ≤ s.2 + c ∧ o' ≤ L) s o) (a : A)
    (s : σ × Nat) (o : Nat) (ho : o ≤ L) :
    WP (forIn_ body l a) (fun _ s' o' => s'.2 ≤ s.2 + l.length * c ∧ o' ≤ L) s o := by
  induction l generalizing a s o with
  | nil => exact WP.pure_ ⟨by simp, ho⟩
  | cons x l ih =>
    unfold forIn_
    refine WP.bind_ ((h x (by simp) a s o ho).mono fun ⟨a', more⟩ s' o' ⟨h1, h2⟩ => ?_)
    have e : (x :: l).length * c = l.length * c + c := by simp [Nat.succ_mul]
    cases more with
    | false => exact WP.pure_ ⟨by rw [e]; omega, h2⟩
    | true =>
      refine (ih (fun y hy => h y (List.mem_cons_of_mem _ hy)) a' s' o' h2).mono fun _ s2 o2 ⟨h3, h4⟩ => ⟨?_, h4⟩
      rw [e]; omega

/-- Follow a body, counting. -/
syntax "wp" : tactic
macro_rules
  | `(tactic| wp) => `(tactic| repeat' (first
      | omega
      | (with_reducible apply WP.bind_) | (with_reducible apply GWP.bind_)
      | (with_reducible apply WP.pure_) | (with_reducible apply GWP.pure_)
      | (with_reducible apply WP.offset_) | (with_reducible apply WP.setOffset_)
      | (with_reducible exact WP.panic__)
      | (with_reducible apply WP.peekCtx_) | (with_reducible apply WP.moveCtx_)
      | (with_reducible apply WP.addAssign_) | (with_reducible apply WP.inspectErr_)
      | (with_reducible apply GWP.try__) | (with_reducible apply GWP.beg_)
      | (with_reducible apply GWP.processRet_)
      | (with_reducible apply GWP.call_) | (with_reducible apply GWP.tryMat_)
      | (with_reducible apply WP.guarded_) | (with_reducible apply WP.function_)
      | (with_reducible apply WP.onClone_)
      | (with_reducible refine Spends.use (by assumption) ?_ ?_)
      | (with_reducible intro _)
      | (with_reducible apply And.intro)
      | contradiction
      | split))

/-! ## Primitive patterns -/

section
variable {d : List ι} {mt : List ι → Pat ι β → M (σ × Nat) (Except Error Span)} {w L : Nat} {c : Cond ι β}
  {Q : Except Error Span → σ × Nat → Nat → Prop}

theorem length_le_blen : ∀ l : List ι, l.length ≤ blen l
  | [] => Nat.le_refl _
  | x :: l => by
    have := length_le_blen l
    have := Item.size_pos x
    simp only [List.length_cons, blen]; omega

theorem indices_length : ∀ (n : Nat) (l : List ι), (indices n l).length = l.length
  | _, [] => rfl
  | n, x :: l => by simp [indices, indices_length _ l]

theorem peek_length {o : Nat} {it : List (Nat × ι)} (h : peek d o = .ok it) : it.length ≤ blen d := by
  unfold peek at h
  cases ho : origAt d o with
  | ok l =>
    rw [ho] at h; cases h
    rw [indices_length]
    have := origAt_len ho
    have := length_le_blen l
    omega
  | err e => rw [ho] at h; cases h
  | panic => rw [ho] at h; cases h

variable (hc : ∀ d' q, c.Has q → (∃ k, origAt d k = .ok d') → ∀ s, WP (mt d' q) (fun _ s' _ => s'.2 ≤ s.2 + w) s 0)
include hc

theorem spend_check (it : Nat × ι) (s : σ × Nat) (o : Nat) :
    WP (Imp.check mt d c it) (fun _ s' _ => s'.2 ≤ s.2 + w) s o := by
  cases c with
  | empty => exact WP.pure_ (by omega)
  | fn f => exact WP.peekCtx_ fun _ _ => by omega
  | regex p =>
    dsimp +zetaHave only [Imp.check]
    refine WP.function_ (GWP.bind_ (GWP.call_ (WP.offset_ ⟨?_, by wp⟩)))
    rintro _ ⟨⟩
    refine GWP.bind_ (GWP.call_ (WP.peekCtx_ fun r hr => ⟨?_, by wp⟩))
    rintro _ ⟨⟩
    refine GWP.bind_ (GWP.try__ ⟨?_, by wp⟩)
    intro cl hcl
    refine GWP.bind_ (GWP.call_ (WP.onClone_ ((hc cl p rfl ⟨_, hr cl hcl⟩ s).mono fun r s' _ h => ⟨?_, by wp⟩)))
    rintro _ ⟨⟩
    exact GWP.pure_ h

theorem spend_test (u : Neu ι) (it : Nat × ι) (g : Guard) (s : σ × Nat) (o : Nat) :
    GWP (Imp.test mt d u c it) (fun _ _ s' _ => s'.2 ≤ s.2 + w) g s o := by
  unfold Imp.test
  split
  · refine GWP.bind_ (GWP.call_ ((spend_check hc it s o).mono fun r s' _ h => ⟨?_, by wp⟩))
    rintro _ ⟨⟩
    exact GWP.try__ h
  · exact GWP.pure_ (by omega)

theorem spend_scanAll (u : Neu ι) : ∀ (it : List (Nat × ι)) (b : Option Nat) (g : Guard) (s : σ × Nat) (o : Nat),
    GWP (Imp.scanAll mt d u c it b) (fun _ _ s' _ => s'.2 ≤ s.2 + it.length * w) g s o
  | [], _, _, _, _ => GWP.pure_ (by simp)
  | pr :: it, b, g, s, o => by
    unfold Imp.scanAll
    have e : (pr :: it).length * w = it.length * w + w := by simp [Nat.succ_mul]
    rw [e]
    refine GWP.bind_ fun r g1 s1 o1 hr => ?_
    have h := spend_test hc u pr g s o r g1 s1 o1 hr
    refine ⟨fun t _ => ?_, fun _ _ => by omega⟩
    split
    · exact fun r g2 s2 o2 hr => by have := spend_scanAll u it _ g1 s1 o1 r g2 s2 o2 hr; omega
    · exact GWP.pure_ (by omega)

theorem spend_scanWhile (u : Neu ι) (more : Nat → Bool) : ∀ (it : List (Nat × ι)) (n : Nat) (b : Option Nat)
    (g : Guard) (s : σ × Nat) (o : Nat),
    GWP (Imp.scanWhile mt d u c more it n b) (fun _ _ s' _ => s'.2 ≤ s.2 + it.length * w) g s o
  | [], _, _, _, _, _ => GWP.pure_ (by simp)
  | pr :: it, n, b, g, s, o => by
    unfold Imp.scanWhile
    have e : (pr :: it).length * w = it.length * w + w := by simp [Nat.succ_mul]
    rw [e]
    split
    · refine GWP.bind_ fun r g1 s1 o1 hr => ?_
      have h := spend_test hc u pr g s o r g1 s1 o1 hr
      refine ⟨fun t _ => ?_, fun _ _ => by omega⟩
      split
      · exact fun r g2 s2 o2 hr => by have := spend_scanWhile u more it _ _ g1 s1 o1 r g2 s2 o2 hr; omega
      · exact GWP.pure_ (by omega)
    · exact GWP.pure_ (by omega)

end

theorem WP.peek_ {d : List ι} {L : Nat} {s : σ} {o : Nat} {Q : Except Error (List (Nat × ι)) → σ → Nat → Prop}
    (hL : blen d ≤ L) (h : ∀ r, (∀ it, r = .ok it → it.length ≤ L) → Q r s o) : WP (peekCtx (peek d)) Q s o :=
  WP.peekCtx_ fun r hr => h r fun it hi => Nat.le_trans (peek_length (hr it hi)) hL

/-- Follow a primitive pattern. -/
syntax "wpl" : tactic
macro_rules
  | `(tactic| wpl) => `(tactic| repeat' (first
      | omega
      | (with_reducible apply WP.bind_) | (with_reducible apply GWP.bind_)
      | (with_reducible apply WP.pure_) | (with_reducible apply GWP.pure_)
      | (with_reducible apply WP.offset_) | (with_reducible apply WP.setOffset_)
      | (with_reducible exact WP.panic__)
      | (with_reducible refine WP.peek_ (by assumption) ?_)
      | (with_reducible apply GWP.try__)
      | (with_reducible apply GWP.call_)
      | (with_reducible apply WP.function_)
      | (with_reducible refine GWP.mono (spend_test (by assumption) _ _ _ _ _) ?_)
      | (with_reducible refine GWP.mono (spend_scanAll (by assumption) _ _ _ _ _ _) ?_)
      | (with_reducible refine GWP.mono (spend_scanWhile (by assumption) _ _ _ _ _ _ _ _) ?_)
      | (with_reducible intro _)
      | (with_reducible apply And.intro)
      | contradiction
      | split))

section
variable {d : List ι} {mt : List ι → Pat ι β → M (σ × Nat) (Except Error Span)} {w L : Nat} {c : Cond ι β}

/-- The number of items left is at most the number of bytes. -/
macro "wpf" w:ident L:ident : tactic => `(tactic| (
  simp only [Except.ok.injEq, forall_eq'] at *
  subst_vars
  simp only [Except.ok.injEq, forall_eq'] at *
  have hm := Nat.mul_le_mul_right $w (‹List.length _ ≤ $L›)
  omega))

theorem spend_once (hL : blen d ≤ L)
    (hc : ∀ d' q, c.Has q → (∃ k, origAt d k = .ok d') → ∀ s, WP (mt d' q) (fun _ s' _ => s'.2 ≤ s.2 + w) s 0)
    (u : Neu ι) (s : σ × Nat) (o : Nat) :
    WP (Imp.once mt d u c) (fun _ s' _ => s'.2 ≤ s.2 + (L + 2) * w) s o := by
  have e : (L + 2) * w = L * w + w + w := by rw [Nat.add_mul]; omega
  rw [e]
  dsimp +zetaHave only [Imp.once, remaining, spanInc, calcLen]
  wpl
  all_goals wpf w L

theorem spend_optU (hL : blen d ≤ L)
    (hc : ∀ d' q, c.Has q → (∃ k, origAt d k = .ok d') → ∀ s, WP (mt d' q) (fun _ s' _ => s'.2 ≤ s.2 + w) s 0)
    (u : Neu ι) (s : σ × Nat) (o : Nat) :
    WP (Imp.optU mt d u c) (fun _ s' _ => s'.2 ≤ s.2 + (L + 2) * w) s o := by
  have e : (L + 2) * w = L * w + w + w := by rw [Nat.add_mul]; omega
  rw [e]
  dsimp +zetaHave only [Imp.optU, remaining, spanInc, calcLen]
  wpl
  all_goals wpf w L

theorem spend_many0 (hL : blen d ≤ L)
    (hc : ∀ d' q, c.Has q → (∃ k, origAt d k = .ok d') → ∀ s, WP (mt d' q) (fun _ s' _ => s'.2 ≤ s.2 + w) s 0)
    (u : Neu ι) (s : σ × Nat) (o : Nat) :
    WP (Imp.many0 mt d u c) (fun _ s' _ => s'.2 ≤ s.2 + (L + 2) * w) s o := by
  have e : (L + 2) * w = L * w + w + w := by rw [Nat.add_mul]; omega
  rw [e]
  dsimp +zetaHave only [Imp.many0, remaining, spanInc, calcLen]
  wpl
  all_goals wpf w L

theorem spend_many1 (hL : blen d ≤ L)
    (hc : ∀ d' q, c.Has q → (∃ k, origAt d k = .ok d') → ∀ s, WP (mt d' q) (fun _ s' _ => s'.2 ≤ s.2 + w) s 0)
    (u : Neu ι) (s : σ × Nat) (o : Nat) :
    WP (Imp.many1 mt d u c) (fun _ s' _ => s'.2 ≤ s.2 + (L + 2) * w) s o := by
  have e : (L + 2) * w = L * w + w + w := by rw [Nat.add_mul]; omega
  rw [e]
  dsimp +zetaHave only [Imp.many1, remaining, spanInc, calcLen]
  wpl
  all_goals wpf w L

theorem spend_between (hL : blen d ≤ L)
    (hc : ∀ d' q, c.Has q → (∃ k, origAt d k = .ok d') → ∀ s, WP (mt d' q) (fun _ s' _ => s'.2 ≤ s.2 + w) s 0)
    (m n : Nat) (u : Neu ι) (s : σ × Nat) (o : Nat) :
    WP (Imp.between mt d m n u c) (fun _ s' _ => s'.2 ≤ s.2 + (L + 2) * w) s o := by
  have e : (L + 2) * w = L * w + w + w := by rw [Nat.add_mul]; omega
  rw [e]
  dsimp +zetaHave only [Imp.between, remaining, spanInc, calcLen]
  wpl
  all_goals wpf w L

theorem spend_times (hL : blen d ≤ L)
    (hc : ∀ d' q, c.Has q → (∃ k, origAt d k = .ok d') → ∀ s, WP (mt d' q) (fun _ s' _ => s'.2 ≤ s.2 + w) s 0)
    (r : CRange) (u : Neu ι) (s : σ × Nat) (o : Nat) :
    WP (Imp.times mt d r u c) (fun _ s' _ => s'.2 ≤ s.2 + (L + 2) * w) s o := by
  have e : (L + 2) * w = L * w + w + w := by rw [Nat.add_mul]; omega
  rw [e]
  dsimp +zetaHave only [Imp.times, remaining, spanInc, calcLen]
  wpl
  all_goals wpf w L

theorem spend_thenU (hL : blen d ≤ L)
    (hc : ∀ d' q, c.Has q → (∃ k, origAt d k = .ok d') → ∀ s, WP (mt d' q) (fun _ s' _ => s'.2 ≤ s.2 + w) s 0)
    (u v : Neu ι) (s : σ × Nat) (o : Nat) :
    WP (Imp.thenU mt d u v c) (fun _ s' _ => s'.2 ≤ s.2 + (L + 2) * w) s o := by
  have e : (L + 2) * w = L * w + w + w := by rw [Nat.add_mul]; omega
  rw [e]
  dsimp +zetaHave only [Imp.thenU, remaining, spanInc, calcLen]
  wpl
  all_goals wpf w L

end

section
omit [Item ι]
variable {L : Nat} {mt : Pat ι β → M (σ × Nat) (Except Error Span)}
  {cn : Pat ι β → M (σ × Nat) (Except Error (Val β))} {a b c q : Pat ι β} {x y z : Nat}

/-- As `wp`, for rounds that move. -/
syntax "wpa" : tactic
macro_rules
  | `(tactic| wpa) => `(tactic| repeat' (first
      | omega
      | (with_reducible apply WP.bind_)
      | (with_reducible apply WP.pure_)
      | (with_reducible apply WP.offset_) | (with_reducible apply WP.setOffset_)
      | (with_reducible exact WP.panic__)
      | (with_reducible apply WP.addAssign_) | (with_reducible apply WP.inspectErr_)
      | (with_reducible refine Spends.use' (by assumption) (by assumption) ?_ ?_)
      | (with_reducible refine Spends.use (by assumption) ?_ ?_)
      | (with_reducible intro _)
      | (with_reducible apply And.intro)
      | contradiction
      | split))

theorem spend_thn (ha : Spends L (mt a) x) (hb : Spends L (mt b) y)  (s : σ × Nat) (o : Nat) (ho : o ≤ L) :
    WP (Imp.thn mt a b) (fun _ s' _ => s'.2 ≤ s.2 + (x + y)) s o := by
  dsimp +zetaHave only [Imp.thn]; wp

theorem spend_pre (ha : Spends L (mt a) x) (hb : Spends L (mt b) y)  (s : σ × Nat) (o : Nat) (ho : o ≤ L) :
    WP (Imp.pre mt a b) (fun _ s' _ => s'.2 ≤ s.2 + (x + y)) s o := by
  dsimp +zetaHave only [Imp.pre]; wp

theorem spend_suf (ha : Spends L (mt a) x) (hb : Spends L (mt b) y)  (s : σ × Nat) (o : Nat) (ho : o ≤ L) :
    WP (Imp.suf mt a b) (fun _ s' _ => s'.2 ≤ s.2 + (x + y)) s o := by
  dsimp +zetaHave only [Imp.suf]; wp

theorem spend_or (ha : Spends L (mt a) x) (hb : Spends L (mt b) y)  (s : σ × Nat) (o : Nat) (ho : o ≤ L) :
    WP (Imp.or mt a b) (fun _ s' _ => s'.2 ≤ s.2 + (x + y)) s o := by
  dsimp +zetaHave only [Imp.or]; wp

theorem spend_longest (ha : Spends L (mt a) x) (hb : Spends L (mt b) y)  (s : σ × Nat) (o : Nat) (ho : o ≤ L) :
    WP (Imp.longest mt a b) (fun _ s' _ => s'.2 ≤ s.2 + (x + y)) s o := by
  dsimp +zetaHave only [Imp.longest]; wp

theorem spend_ifThen (ha : Spends L (mt a) x) (hb : Spends L (mt b) y) (hc : Spends L (mt c) z)  (s : σ × Nat) (o : Nat) (ho : o ≤ L) :
    WP (Imp.ifThen mt a b c) (fun _ s' _ => s'.2 ≤ s.2 + (x + y + z)) s o := by
  dsimp +zetaHave only [Imp.ifThen]; wp

theorem spend_enclose (ha : Spends L (mt a) x) (hb : Spends L (mt b) y) (hc : Spends L (mt c) z)  (s : σ × Nat) (o : Nat) (ho : o ≤ L) :
    WP (Imp.enclose mt a b c) (fun _ s' _ => s'.2 ≤ s.2 + (x + y + z)) s o := by
  dsimp +zetaHave only [Imp.enclose]; wp

theorem spend_sepOnce (ha : Spends L (mt a) x) (hb : Spends L (mt b) y) (hc : Spends L (mt c) z)  (s : σ × Nat) (o : Nat) (ho : o ≤ L) :
    WP (Imp.sepOnce mt a b c) (fun _ s' _ => s'.2 ≤ s.2 + (x + y + z)) s o := by
  dsimp +zetaHave only [Imp.sepOnce]; wp

theorem spend_assert (ha : Spends L (mt a) x) (v : Bool) (s : σ × Nat) (o : Nat) (ho : o ≤ L) :
    WP (Imp.assert mt a v) (fun _ s' _ => s'.2 ≤ s.2 + (x)) s o := by
  dsimp +zetaHave only [Imp.assert]; wp

theorem spend_opt (ha : Spends L (mt a) x)  (s : σ × Nat) (o : Nat) (ho : o ≤ L) :
    WP (Imp.opt mt a) (fun _ s' _ => s'.2 ≤ s.2 + (x)) s o := by
  dsimp +zetaHave only [Imp.opt]; wp

theorem spend_branch (ha : Spends L (mt a) x) (hb : Spends L (mt b) y) (d : List ι) (t : List ι → Nat → Out Bool) (s : σ × Nat) (o : Nat) (ho : o ≤ L) :
    WP (Imp.branch mt d t a b) (fun _ s' _ => s'.2 ≤ s.2 + (x + y)) s o := by
  dsimp +zetaHave only [Imp.branch]; wp

theorem spend_build (ha : Spends L (mt a) x)
    {f : List ι → Nat → Span → Res (Pat ι β)} {d : List ι} (hf : ∀ o s q o', o ≤ L → f d o s = .ok q o' → o' ≤ L ∧ Spends L (mt q) y) (s : σ × Nat) (o : Nat) (ho : o ≤ L) :
    WP (Imp.build mt d a f) (fun _ s' _ => s'.2 ≤ s.2 + (x + y)) s o := by
  dsimp +zetaHave only [Imp.build]; wp
  all_goals subst_vars
  all_goals first
    | (exfalso; simp_all; done)
    | (simp only [Except.ok.injEq] at *
       subst_vars
       try simp only [Except.ok.injEq] at *
       subst_vars
       have h := hf _ _ _ _ ‹_› ‹_ = Res.ok _ _›
       refine h.2.use h.1 ?_
       wp)

theorem spend_thnC (ha : Spends L (cn a) x) (hb : Spends L (cn b) y)  (s : σ × Nat) (o : Nat) (ho : o ≤ L) :
    WP (Imp.thnC cn a b) (fun _ s' _ => s'.2 ≤ s.2 + (x + y)) s o := by
  dsimp +zetaHave only [Imp.thnC]; wp

theorem spend_orC (ha : Spends L (cn a) x) (hb : Spends L (cn b) y)  (s : σ × Nat) (o : Nat) (ho : o ≤ L) :
    WP (Imp.orC cn a b) (fun _ s' _ => s'.2 ≤ s.2 + (x + y)) s o := by
  dsimp +zetaHave only [Imp.orC]; wp

theorem spend_longestC (ha : Spends L (cn a) x) (hb : Spends L (cn b) y)  (s : σ × Nat) (o : Nat) (ho : o ≤ L) :
    WP (Imp.longestC cn a b) (fun _ s' _ => s'.2 ≤ s.2 + (x + y)) s o := by
  dsimp +zetaHave only [Imp.longestC]; wp

theorem spend_ifThenC (ha : Spends L (cn a) x) (hb : Spends L (mt b) y) (hc : Spends L (cn c) z)  (s : σ × Nat) (o : Nat) (ho : o ≤ L) :
    WP (Imp.ifThenC mt cn a b c) (fun _ s' _ => s'.2 ≤ s.2 + (x + y + z)) s o := by
  dsimp +zetaHave only [Imp.ifThenC]; wp

theorem spend_preC (ha : Spends L (mt a) x) (hb : Spends L (cn b) y)  (s : σ × Nat) (o : Nat) (ho : o ≤ L) :
    WP (Imp.preC mt cn a b) (fun _ s' _ => s'.2 ≤ s.2 + (x + y)) s o := by
  dsimp +zetaHave only [Imp.preC]; wp

theorem spend_sufC (ha : Spends L (cn a) x) (hb : Spends L (mt b) y)  (s : σ × Nat) (o : Nat) (ho : o ≤ L) :
    WP (Imp.sufC mt cn a b) (fun _ s' _ => s'.2 ≤ s.2 + (x + y)) s o := by
  dsimp +zetaHave only [Imp.sufC]; wp

theorem spend_encloseC (ha : Spends L (mt a) x) (hb : Spends L (cn b) y) (hc : Spends L (mt c) z)  (s : σ × Nat) (o : Nat) (ho : o ≤ L) :
    WP (Imp.encloseC mt cn a b c) (fun _ s' _ => s'.2 ≤ s.2 + (x + y + z)) s o := by
  dsimp +zetaHave only [Imp.encloseC]; wp

theorem spend_sepOnceC (ha : Spends L (cn a) x) (hb : Spends L (mt b) y) (hc : Spends L (cn c) z)  (s : σ × Nat) (o : Nat) (ho : o ≤ L) :
    WP (Imp.sepOnceC mt cn a b c) (fun _ s' _ => s'.2 ≤ s.2 + (x + y + z)) s o := by
  dsimp +zetaHave only [Imp.sepOnceC]; wp

theorem spend_optC (ha : Spends L (cn a) x)  (s : σ × Nat) (o : Nat) (ho : o ≤ L) :
    WP (Imp.optC cn a) (fun _ s' _ => s'.2 ≤ s.2 + (x)) s o := by
  dsimp +zetaHave only [Imp.optC]; wp

theorem spend_mapC (ha : Spends L (cn a) x) (f : Val β → Out (Val β)) (s : σ × Nat) (o : Nat) (ho : o ≤ L) :
    WP (Imp.mapC cn a f) (fun _ s' _ => s'.2 ≤ s.2 + (x)) s o := by
  dsimp +zetaHave only [Imp.mapC]; wp

theorem spend_branchC (ha : Spends L (cn a) x) (hb : Spends L (cn b) y) (d : List ι) (t : List ι → Nat → Out Bool) (s : σ × Nat) (o : Nat) (ho : o ≤ L) :
    WP (Imp.branchC cn d t a b) (fun _ s' _ => s'.2 ≤ s.2 + (x + y)) s o := by
  dsimp +zetaHave only [Imp.branchC]; wp

theorem spend_dthenC (ha : Spends L (cn a) x)
    {f : List ι → Nat → Val β → Res (Pat ι β)} {d : List ι} (hf : ∀ o s q o', o ≤ L → f d o s = .ok q o' → o' ≤ L ∧ Spends L (cn q) y)  (s : σ × Nat) (o : Nat) (ho : o ≤ L) :
    WP (Imp.dthenC cn d a f) (fun _ s' _ => s'.2 ≤ s.2 + (x + y)) s o := by
  dsimp +zetaHave only [Imp.dthenC]; wp
  all_goals subst_vars
  all_goals first
    | (exfalso; simp_all; done)
    | (simp only [Except.ok.injEq] at *
       subst_vars
       try simp only [Except.ok.injEq] at *
       subst_vars
       have h := hf _ _ _ _ ‹_› ‹_ = Res.ok _ _›
       refine h.2.use h.1 ?_
       wp)

/-- After the loop nothing is called. -/
theorem WP.after_loop {T α : Type} {c m : Nat} {body : T → M (σ × Nat) (T × Bool)} (μ : T → Nat → Nat)
    (h : ∀ t s o, o ≤ L → WP (body t) (fun r s' o' => s'.2 ≤ s.2 + c ∧ o' ≤ L ∧
      (r.2 = true → μ r.1 o' < μ t o)) s o)
    {fuel : Nat} {t : T} {s : σ × Nat} {o : Nat} (ho : o ≤ L) {k : T → M (σ × Nat) α}
    (hm : μ t o < m) (hk : ∀ t s' o', WP (k t) (fun _ s2 _ => s2.2 = s'.2) s' o') :
    WP (loop body fuel t >>= k) (fun _ s' _ => s'.2 ≤ s.2 + m * c) s o := by
  refine WP.bind_ ((WP.loop_ μ h fuel t s o ho).mono fun t' s' o' ⟨h1, _⟩ => ?_)
  refine (hk t' s' o').mono fun _ s2 _ h2 => ?_
  have : (μ t o + 1) * c ≤ m * c := Nat.mul_le_mul_right _ (by omega)
  omega

theorem more_lt {r : CRange} {n k : Nat} (h : r.most = some n) (hm : r.more k = true) : k < n := by
  obtain ⟨lo, hi⟩ := r
  cases hi <;> simp [CRange.most, CRange.more] at h hm <;> omega

/-- Close what `wpa` leaves: a success has moved. -/
macro "wpe" : tactic => `(tactic| (
  try simp only [isOk, Except.ok.injEq, forall_eq', Bool.or_eq_true, reduceCtorEq, Bool.false_eq_true, false_or,
    Bool.not_eq_true', Bool.not_eq_true] at *
  first | omega | (simp_all; done) | (simp_all; omega)))

theorem spend_repMost (hq : Spends L (mt a) x) {r : CRange} {n : Nat} (hn : r.most = some n) (fuel : Nat) (s : σ × Nat) (o : Nat) (ho : o ≤ L) :
    WP (Imp.rep mt fuel a r) (fun _ s' _ => s'.2 ≤ s.2 + (n + 1) * (x)) s o := by
  dsimp +zetaHave only [Imp.rep, Imp.sepBody, setAt]
  refine WP.bind_ (WP.offset_ ?_)
  refine WP.after_loop (L := L) (fun (t : Nat × Span) _ => n - t.1) ?_ ho ?_ ?_
  · wpa
    all_goals (have := more_lt hn ‹r.more _ = true›; simp only; omega)
  · first | omega | (simp; omega) | (simp; done)
  · wpa

theorem spend_rep (hq : Spends L (mt a) x) (hqa : Advances L (mt a)) (r : CRange) (fuel : Nat) (s : σ × Nat) (o : Nat) (ho : o ≤ L) :
    WP (Imp.rep mt fuel a r) (fun _ s' _ => s'.2 ≤ s.2 + (L + 1) * (x)) s o := by
  dsimp +zetaHave only [Imp.rep, Imp.sepBody, setAt]
  refine WP.bind_ (WP.offset_ ?_)
  refine WP.after_loop (L := L) (fun (_ : Nat × Span) o => L - o) ?_ ho ?_ ?_
  · wpa
    all_goals wpe
  · first | omega | (simp; omega) | (simp; done)
  · wpa

theorem spend_rep2 (hq : Spends L (mt a) x) (m n : Nat) (fuel : Nat) (s : σ × Nat) (o : Nat) (ho : o ≤ L) :
    WP (Imp.rep2 mt fuel a m n) (fun _ s' _ => s'.2 ≤ s.2 + (n + 2) * (x)) s o := by
  dsimp +zetaHave only [Imp.rep2, Imp.sepBody, setAt]
  refine WP.bind_ (WP.offset_ ?_)
  refine WP.after_loop (L := L) (fun (t : Nat × Span) _ => n + 1 - t.1) ?_ ho ?_ ?_
  · wpa
    all_goals wpe
  · first | omega | (simp; omega) | (simp; done)
  · wpa

theorem spend_collect (hq : Spends L (mt a) x) (hqa : Advances L (mt a)) (m : Nat) (fuel : Nat) (s : σ × Nat) (o : Nat) (ho : o ≤ L) :
    WP (Imp.collect mt fuel a m) (fun _ s' _ => s'.2 ≤ s.2 + (L + 1) * (x)) s o := by
  dsimp +zetaHave only [Imp.collect, Imp.sepBody, setAt]
  refine WP.bind_ (WP.offset_ ?_)
  refine WP.after_loop (L := L) (fun (_ : Nat × Span) o => L - o) ?_ ho ?_ ?_
  · wpa
    all_goals wpe
  · first | omega | (simp; omega) | (simp; done)
  · wpa

theorem spend_sep (hq : Spends L (mt a) x) (hs : Spends L (mt b) y) (hadv : Advances L (mt a) ∨ Advances L (mt b)) (skip : Bool) (m : Nat) (fuel : Nat) (s : σ × Nat) (o : Nat) (ho : o ≤ L) :
    WP (Imp.sep mt fuel a b skip m) (fun _ s' _ => s'.2 ≤ s.2 + (L + 1) * (x + y)) s o := by
  dsimp +zetaHave only [Imp.sep, Imp.sepBody, setAt]
  refine WP.bind_ (WP.offset_ ?_)
  refine WP.after_loop (L := L) (fun (_ : Nat × Span) o => L - o) ?_ ho ?_ ?_
  · rcases hadv with hadv | hadv
    all_goals wpa
    all_goals wpe
  · first | omega | (simp; omega) | (simp; done)
  · wpa

theorem spend_sep2 (hq : Spends L (mt a) x) (hs : Spends L (mt b) y) (skip : Bool) (m n : Nat) (fuel : Nat) (s : σ × Nat) (o : Nat) (ho : o ≤ L) :
    WP (Imp.sep2 mt fuel a b skip m n) (fun _ s' _ => s'.2 ≤ s.2 + (n + 2) * (x + y)) s o := by
  dsimp +zetaHave only [Imp.sep2, Imp.sepBody, setAt]
  refine WP.bind_ (WP.offset_ ?_)
  refine WP.after_loop (L := L) (fun (t : Nat × Span) _ => n + 1 - t.1) ?_ ho ?_ ?_
  · wpa
    all_goals wpe
  · first | omega | (simp; omega) | (simp; done)
  · wpa

theorem spend_sepCollect (hq : Spends L (mt a) x) (hs : Spends L (mt b) y) (hadv : Advances L (mt a) ∨ Advances L (mt b)) (skip : Bool) (m : Nat) (fuel : Nat) (s : σ × Nat) (o : Nat) (ho : o ≤ L) :
    WP (Imp.sepCollect mt fuel a b skip m) (fun _ s' _ => s'.2 ≤ s.2 + (L + 2) * (x + y)) s o := by
  dsimp +zetaHave only [Imp.sepCollect, Imp.sepBody, setAt]
  refine WP.bind_ (WP.offset_ ?_)
  refine WP.after_loop (L := L) (fun (_ : Nat × Span) o => L - o) ?_ ho ?_ ?_
  · rcases hadv with hadv | hadv
    all_goals wpa
    all_goals wpe
  · first | omega | (simp; omega) | (simp; done)
  · wpa

theorem spend_repMostC (hq : Spends L (cn a) x) {r : CRange} {n : Nat} (hn : r.most = some n) (fuel : Nat) (s : σ × Nat) (o : Nat) (ho : o ≤ L) :
    WP (Imp.repC cn fuel a r) (fun _ s' _ => s'.2 ≤ s.2 + (n + 1) * (x)) s o := by
  dsimp +zetaHave only [Imp.repC, Imp.sepBody, setAt]
  refine WP.bind_ (WP.offset_ ?_)
  refine WP.after_loop (L := L) (fun (t : Nat × List (Val β)) _ => n - t.1) ?_ ho ?_ ?_
  · wpa
    all_goals (have := more_lt hn ‹r.more _ = true›; simp only; omega)
  · first | omega | (simp; omega) | (simp; done)
  · wpa

theorem spend_repC (hq : Spends L (cn a) x) (hqa : Advances L (cn a)) (r : CRange) (fuel : Nat) (s : σ × Nat) (o : Nat) (ho : o ≤ L) :
    WP (Imp.repC cn fuel a r) (fun _ s' _ => s'.2 ≤ s.2 + (L + 1) * (x)) s o := by
  dsimp +zetaHave only [Imp.repC, Imp.sepBody, setAt]
  refine WP.bind_ (WP.offset_ ?_)
  refine WP.after_loop (L := L) (fun (_ : Nat × List (Val β)) o => L - o) ?_ ho ?_ ?_
  · wpa
    all_goals wpe
  · first | omega | (simp; omega) | (simp; done)
  · wpa

theorem spend_rep2C (hq : Spends L (cn a) x) (m n : Nat) (fuel : Nat) (s : σ × Nat) (o : Nat) (ho : o ≤ L) :
    WP (Imp.rep2C cn fuel a m n) (fun _ s' _ => s'.2 ≤ s.2 + (n + 2) * (x)) s o := by
  dsimp +zetaHave only [Imp.rep2C, Imp.sepBody, setAt]
  refine WP.bind_ (WP.offset_ ?_)
  refine WP.after_loop (L := L) (fun (t : Nat × List (Val β)) _ => n + 1 - t.1) ?_ ho ?_ ?_
  · wpa
    all_goals wpe
  · first | omega | (simp; omega) | (simp; done)
  · wpa

theorem spend_collectC (hq : Spends L (cn a) x) (hqa : Advances L (cn a)) (m : Nat) (fuel : Nat) (s : σ × Nat) (o : Nat) (ho : o ≤ L) :
    WP (Imp.collectC cn fuel a m) (fun _ s' _ => s'.2 ≤ s.2 + (L + 1) * (x)) s o := by
  dsimp +zetaHave only [Imp.collectC, Imp.sepBody, setAt]
  refine WP.bind_ (WP.offset_ ?_)
  refine WP.after_loop (L := L) (fun (_ : Nat × List (Val β)) o => L - o) ?_ ho ?_ ?_
  · wpa
    all_goals wpe
  · first | omega | (simp; omega) | (simp; done)
  · wpa

theorem spend_sepC (hq : Spends L (cn a) x) (hs : Spends L (mt b) y) (hadv : Advances L (cn a) ∨ Advances L (mt b)) (skip : Bool) (m : Nat) (fuel : Nat) (s : σ × Nat) (o : Nat) (ho : o ≤ L) :
    WP (Imp.sepC mt cn fuel a b skip m) (fun _ s' _ => s'.2 ≤ s.2 + (L + 1) * (x + y)) s o := by
  dsimp +zetaHave only [Imp.sepC, Imp.sepBody, setAt]
  refine WP.bind_ (WP.offset_ ?_)
  refine WP.after_loop (L := L) (fun (_ : List (Val β)) o => L - o) ?_ ho ?_ ?_
  · rcases hadv with hadv | hadv
    all_goals wpa
    all_goals wpe
  · first | omega | (simp; omega) | (simp; done)
  · wpa

theorem spend_sep2C (hq : Spends L (cn a) x) (hs : Spends L (mt b) y) (skip : Bool) (m n : Nat) (fuel : Nat) (s : σ × Nat) (o : Nat) (ho : o ≤ L) :
    WP (Imp.sep2C mt cn fuel a b skip m n) (fun _ s' _ => s'.2 ≤ s.2 + (n + 2) * (x + y)) s o := by
  dsimp +zetaHave only [Imp.sep2C, Imp.sepBody, setAt]
  refine WP.bind_ (WP.offset_ ?_)
  refine WP.after_loop (L := L) (fun (t : Nat × List (Val β)) _ => n + 1 - t.1) ?_ ho ?_ ?_
  · wpa
    all_goals wpe
  · first | omega | (simp; omega) | (simp; done)
  · wpa

theorem spend_sepCollectC (hq : Spends L (cn a) x) (hs : Spends L (mt b) y) (hadv : Advances L (cn a) ∨ Advances L (mt b)) (skip : Bool) (m : Nat) (fuel : Nat) (s : σ × Nat) (o : Nat) (ho : o ≤ L) :
    WP (Imp.sepCollectC mt cn fuel a b skip m) (fun _ s' _ => s'.2 ≤ s.2 + (L + 2) * (x + y)) s o := by
  dsimp +zetaHave only [Imp.sepCollectC, Imp.sepBody, setAt]
  refine WP.bind_ (WP.offset_ ?_)
  refine WP.after_loop (L := L) (fun (t : Nat × Bool × List (Val β)) o => L - o + (if t.2.1 then 0 else 1)) ?_ ho ?_ ?_
  · rcases hadv with hadv | hadv
    all_goals wpa
    all_goals wpe
  · first | omega | (simp; omega) | (simp; done)
  · wpa

theorem spend_choice {items : List (Pat ι β × Option (Val β))} (h : ∀ it ∈ items, Spends L (mt it.1) x) (e : Error)
    (s : σ × Nat) (o : Nat) (ho : o ≤ L) :
    WP (Imp.choice mt e items) (fun _ s' _ => s'.2 ≤ s.2 + items.length * x) s o := by
  dsimp +zetaHave only [Imp.choice]
  refine WP.bind_ (WP.offset_ ?_)
  first
    | refine (WP.forIn__ (L := L) (c := x) ?_ _ s o ho).mono fun _ s' _ h => h.1
    | refine WP.bind_ ((WP.forIn__ (L := L) (c := x) ?_ _ s o ho).mono fun _ s' _ h => ?_)
  · intro it hit
    have hi := h it hit
    wp
  all_goals wp

theorem spend_ltm {items : List (Pat ι β × Option (Val β))} (h : ∀ it ∈ items, Spends L (mt it.1) x) (e : Error)
    (s : σ × Nat) (o : Nat) (ho : o ≤ L) :
    WP (Imp.ltm mt e items) (fun _ s' _ => s'.2 ≤ s.2 + items.length * x) s o := by
  dsimp +zetaHave only [Imp.ltm]
  refine WP.bind_ (WP.offset_ ?_)
  first
    | refine (WP.forIn__ (L := L) (c := x) ?_ _ s o ho).mono fun _ s' _ h => h.1
    | refine WP.bind_ ((WP.forIn__ (L := L) (c := x) ?_ _ s o ho).mono fun _ s' _ h => ?_)
  · intro it hit
    have hi := h it hit
    wp
  all_goals wp

theorem spend_choiceC {items : List (Pat ι β × Option (Val β))} (h : ∀ it ∈ items, Spends L (cn it.1) x) (e : Error)
    (s : σ × Nat) (o : Nat) (ho : o ≤ L) :
    WP (Imp.choiceC cn e items) (fun _ s' _ => s'.2 ≤ s.2 + items.length * x) s o := by
  dsimp +zetaHave only [Imp.choiceC]
  refine WP.bind_ (WP.offset_ ?_)
  first
    | refine (WP.forIn__ (L := L) (c := x) ?_ _ s o ho).mono fun _ s' _ h => h.1
    | refine WP.bind_ ((WP.forIn__ (L := L) (c := x) ?_ _ s o ho).mono fun _ s' _ h => ?_)
  · intro it hit
    have hi := h it hit
    wp
  all_goals wp

theorem spend_ltmC {items : List (Pat ι β × Option (Val β))} (h : ∀ it ∈ items, Spends L (cn it.1) x) (e : Error)
    (s : σ × Nat) (o : Nat) (ho : o ≤ L) :
    WP (Imp.ltmC cn e items) (fun _ s' _ => s'.2 ≤ s.2 + items.length * x) s o := by
  dsimp +zetaHave only [Imp.ltmC]
  refine WP.bind_ (WP.offset_ ?_)
  first
    | refine (WP.forIn__ (L := L) (c := x) ?_ _ s o ho).mono fun _ s' _ h => h.1
    | refine WP.bind_ ((WP.forIn__ (L := L) (c := x) ?_ _ s o ho).mono fun _ s' _ h => ?_)
  · intro it hit
    have hi := h it hit
    wp
  all_goals wp

end

theorem spend_plain (G : Rules ι β) (n : Nat) (mt : List ι → Pat ι β → M (σ × Nat) (Except Error Span))
    (pr : Pat ι β → M (σ × Nat) (Except Error Span)) {p : Pat ι β} (hp : Plain p) (s : σ × Nat) (o : Nat) :
    WP (impStep G n mt pr d p) (fun _ s' _ => s'.2 = s.2) s o := by
  cases p <;> first
    | exact hp.elim
    | (dsimp +zetaHave only [impStep, Imp.empty, Imp.fail, Imp.start, Imp.anchorEnd, Imp.consume, Imp.consumeAll,
        Imp.lit, remaining, spanInc]; wp)

theorem spend_unit (G : Rules ι β) (n : Nat) {mt : List ι → Pat ι β → M (σ × Nat) (Except Error Span)}
    (pr : Pat ι β → M (σ × Nat) (Except Error Span)) {p : Pat ι β} {c : Cond ι β} (hp : condOf p = some c)
    {L w : Nat} (hL : blen d ≤ L)
    (hc : ∀ d' q, c.Has q → (∃ k, origAt d k = .ok d') → ∀ s, WP (mt d' q) (fun _ s' _ => s'.2 ≤ s.2 + w) s 0)
    (s : σ × Nat) (o : Nat) :
    WP (impStep G n mt pr d p) (fun _ s' _ => s'.2 ≤ s.2 + (L + 2) * w) s o := by
  cases p <;> simp only [condOf, reduceCtorEq, Option.some.injEq] at hp <;> subst hp
  · exact spend_once hL hc _ s o
  · exact spend_many1 hL hc _ s o
  · exact spend_optU hL hc _ s o
  · exact spend_many0 hL hc _ s o
  · exact spend_between hL hc _ _ _ s o
  · exact spend_times hL hc _ _ s o
  · exact spend_thenU hL hc _ _ s o

theorem spend_invoke {H : Handler ι β σ} {m : M (σ × Nat) (Except Error Span)} {w : Nat} {s : σ × Nat} {o : Nat}
    (h : WP m (fun _ s' _ => s'.2 ≤ s.2 + w) s o) :
    WP (Imp.invoke H.beside d m) (fun _ s' _ => s'.2 ≤ s.2 + w) s o := by
  unfold Imp.invoke
  refine WP.bind_ (h.mono fun r s' o' h => ?_)
  cases r with
  | error e => exact WP.pure_ h
  | ok x =>
    intro a s2 o2 he
    simp only [Handler.beside] at he
    split at he <;> cases he
    · rename_i hh; simp only [Prod.mk.injEq] at hh; obtain ⟨-, rfl⟩ := hh; exact h
    · rename_i hh; simp only [Prod.mk.injEq] at hh; obtain ⟨-, rfl⟩ := hh; exact h

end Neure
