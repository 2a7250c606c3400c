import Verif.Poison
import Verif.Cong
import Verif.LockSpec
/-!
# Programs along a list of operations

`Uses z w r`: the program uses up exactly `w` and then has outcome `r`.  `tameCong`:
whenever a program has an outcome it has used up a part of the list, and that part is
of a given form.  `obeyCong`: whatever the plain program does, there is a list of the
given form along which the program does it.
-/

namespace Neure

set_option linter.unusedSectionVars false

variable {σ α γ ρ ρ' : Type}

/-- With at least `w` to go along, `z` uses up `w` and has outcome `r`; with less than
`w` it gives up. -/
def Uses (z : List PEv → Option ρ) (w : List PEv) (r : List PEv → ρ) : Prop :=
  (∀ v, z (w ++ v) = some (r v)) ∧ ∀ u e v, w = u ++ e :: v → z u = none

theorem uses_nil {z : List PEv → Option ρ} {r : List PEv → ρ} (h : ∀ v, z v = some (r v)) :
    Uses z [] r := ⟨h, fun u e v h => by simp at h⟩

/-- Something that goes on with `z₂` after `z`. -/
theorem Uses.seq {z : List PEv → Option ρ} {z' z₂ : List PEv → Option ρ'} {w w₂ : List PEv}
    {r : List PEv → ρ} {r₂ : List PEv → ρ'} (h : Uses z w r)
    (h0 : ∀ l, z l = none → z' l = none) (h1 : ∀ l v, z l = some (r v) → z' l = z₂ v)
    (h2 : Uses z₂ w₂ r₂) : Uses z' (w ++ w₂) r₂ := by
  refine ⟨fun v => ?_, fun u e v he => ?_⟩
  · rw [List.append_assoc, h1 _ _ (h.1 _), h2.1]
  · rcases List.append_eq_append_iff.mp he with ⟨a, ha, hb⟩ | ⟨a, ha, hb⟩
    · subst ha
      rw [h1 _ _ (h.1 a)]
      exact h2.2 _ _ _ hb
    · cases a with
      | nil =>
        simp only [List.append_nil, List.nil_append] at ha hb
        subst ha
        have := h1 _ _ (h.1 [])
        rw [List.append_nil] at this
        rw [this]
        exact h2.2 [] e v hb.symm
      | cons x a =>
        obtain ⟨rfl, rfl⟩ : e = x ∧ v = a ++ w₂ := by simpa using hb
        exact h0 _ (h.2 _ _ _ ha)

/-- Something that only changes the outcome. -/
theorem Uses.map {z : List PEv → Option ρ} {z' : List PEv → Option ρ'} {w : List PEv}
    {r : List PEv → ρ} {r₂ : List PEv → ρ'} (h : Uses z w r)
    (h0 : ∀ l, z l = none → z' l = none) (h1 : ∀ l v, z l = some (r v) → z' l = some (r₂ v)) :
    Uses z' w r₂ := by
  have := h.seq (z₂ := fun v => some (r₂ v)) h0 h1 (uses_nil fun _ => rfl)
  simpa using this

/-- The list is used up in only one way. -/
theorem Uses.uniq {z : List PEv → Option ρ} {w w' l l' : List PEv} {r r' : List PEv → ρ}
    (h : Uses z w r) (h' : Uses z w' r') (e : w ++ l = w' ++ l') : w = w' := by
  rcases List.append_eq_append_iff.mp e with ⟨a, ha, _⟩ | ⟨a, ha, _⟩
  · cases a with
    | nil => simpa using ha.symm
    | cons x a =>
      have := h'.2 _ _ _ ha
      have h1 := h.1 []
      rw [List.append_nil, this] at h1
      cases h1
  · cases a with
    | nil => simpa using ha
    | cons x a =>
      have := h.2 _ _ _ ha
      have h1 := h'.1 []
      rw [List.append_nil, this] at h1
      cases h1

/-- The outcome together with what is left of the list. -/
def MRes.left : MRes σ α → List PEv → MRes (σ × List PEv) α
  | .done a s o, v => .done a (s, v) o
  | .panic, _ => .panic

def GRes.left : GRes σ α → List PEv → GRes (σ × List PEv) α
  | .done a g s o, v => .done a g (s, v) o
  | .panic, _ => .panic

def MRes.isPanic : MRes σ α → Bool
  | .panic => true
  | _ => false

def GRes.isPanic : GRes σ α → Bool
  | .panic => true
  | _ => false

/-- The form of what is used up: by a program that returns (`false`), and by one that
panics (`true`). -/
structure Form where
  Ok : Bool → List PEv → Prop
  nil : ∀ b, Ok b []
  app : ∀ b u v, Ok false u → Ok b v → Ok b (u ++ v)

variable {Y Z : Form}

/-! ## Using up a part of the list -/

def Tame (Y : Form) (x : M (σ × List PEv) α) : Prop := ∀ s l o, x (s, l) o ≠ none →
  ∃ w l' r, l = w ++ l' ∧ Uses (fun l => x (s, l) o) w (MRes.left r) ∧ Y.Ok r.isPanic w

def GTame (Y : Form) (x : GM (σ × List PEv) α) : Prop := ∀ g s l o, x g (s, l) o ≠ none →
  ∃ w l' r, l = w ++ l' ∧ Uses (fun l => x g (s, l) o) w (GRes.left r) ∧ Y.Ok r.isPanic w

theorem tame_const {x : M (σ × List PEv) α} (h : ∀ s o, ∃ r, ∀ l, x (s, l) o = some (MRes.left r l)) :
    Tame Y x := by
  intro s l o _
  obtain ⟨r, hr⟩ := h s o
  exact ⟨[], l, r, rfl, uses_nil hr, Y.nil _⟩

theorem gtame_const {x : GM (σ × List PEv) α}
    (h : ∀ g s o, ∃ r, ∀ l, x g (s, l) o = some (GRes.left r l)) : GTame Y x := by
  intro g s l o _
  obtain ⟨r, hr⟩ := h g s o
  exact ⟨[], l, r, rfl, uses_nil hr, Y.nil _⟩

theorem tame_bind {x : M (σ × List PEv) α} {f : α → M (σ × List PEv) γ} (h : Tame Y x)
    (hf : ∀ a, Tame Y (f a)) : Tame Y (x >>= f) := by
  intro s l o hne
  have hx : x (s, l) o ≠ none := fun e => hne (by rw [M.bind_app, e])
  obtain ⟨w, l', r, rfl, hu, hok⟩ := h s l o hx
  have hx' : x (s, w ++ l') o = some (r.left l') := hu.1 l'
  cases r with
  | panic =>
    refine ⟨w, l', .panic, rfl, hu.map (fun l e => ?_) (fun l v e => ?_), hok⟩
    · simp only [M.bind_app] at e ⊢; rw [e]
    · simp only [M.bind_app] at e ⊢; rw [e]; rfl
  | done a s' o' =>
    simp only [M.bind_app, hx', MRes.left] at hne
    obtain ⟨w₂, l₂, r₂, rfl, hu₂, hok₂⟩ := hf a s' l' o' hne
    refine ⟨w ++ w₂, l₂, r₂, (List.append_assoc ..).symm, hu.seq (fun l e => ?_) (fun l v e => ?_) hu₂,
      Y.app _ _ _ hok hok₂⟩
    · simp only [M.bind_app] at e ⊢; rw [e]
    · simp only [M.bind_app] at e ⊢; rw [e]; rfl

theorem gtame_bind {x : GM (σ × List PEv) α} {f : α → GM (σ × List PEv) γ} (h : GTame Y x)
    (hf : ∀ a, GTame Y (f a)) : GTame Y (x >>= f) := by
  intro g s l o hne
  have hx : x g (s, l) o ≠ none := fun e => hne (by rw [GM.bind_app, e])
  obtain ⟨w, l', r, rfl, hu, hok⟩ := h g s l o hx
  have hx' : x g (s, w ++ l') o = some (r.left l') := hu.1 l'
  cases r with
  | panic =>
    refine ⟨w, l', .panic, rfl, hu.map (fun l e => ?_) (fun l v e => ?_), hok⟩
    · simp only [GM.bind_app] at e ⊢; rw [e]
    · simp only [GM.bind_app] at e ⊢; rw [e]; rfl
  | done a g' s' o' =>
    cases a with
    | error er =>
      refine ⟨w, l', .done (.error er) g' s' o', rfl, hu.map (fun l e => ?_) (fun l v e => ?_), hok⟩
      · simp only [GM.bind_app] at e ⊢; rw [e]
      · simp only [GM.bind_app] at e ⊢; rw [e]; rfl
    | ok a =>
      simp only [GM.bind_app, hx', GRes.left] at hne
      obtain ⟨w₂, l₂, r₂, rfl, hu₂, hok₂⟩ := hf a g' s' l' o' hne
      refine ⟨w ++ w₂, l₂, r₂, (List.append_assoc ..).symm, hu.seq (fun l e => ?_) (fun l v e => ?_) hu₂,
        Y.app _ _ _ hok hok₂⟩
      · simp only [GM.bind_app] at e ⊢; rw [e]
      · simp only [GM.bind_app] at e ⊢; rw [e]; rfl

theorem tame_onClone {x : M (σ × List PEv) α} (h : Tame Y x) : Tame Y (onClone x) := by
  intro s l o hne
  have hx : x (s, l) 0 ≠ none := fun e => hne (by simp only [onClone, e])
  obtain ⟨w, l', r, rfl, hu, hok⟩ := h s l 0 hx
  refine ⟨w, l', match r with | .panic => .panic | .done a s' _ => .done a s' o, rfl,
    hu.map (fun l e => ?_) (fun l v e => ?_), by cases r <;> exact hok⟩
  · simp only [onClone] at e ⊢; rw [e]
  · simp only [onClone] at e ⊢; rw [e]; cases r <;> rfl

theorem gtame_call {x : M (σ × List PEv) α} (h : Tame Y x) : GTame Y (GM.call x) := by
  intro g s l o hne
  have hx : x (s, l) o ≠ none := fun e => hne (by simp only [GM.call, e])
  obtain ⟨w, l', r, rfl, hu, hok⟩ := h s l o hx
  refine ⟨w, l', match r with | .panic => .panic | .done a s' o' => .done (.ok a) g s' o', rfl,
    hu.map (fun l e => ?_) (fun l v e => ?_), by cases r <;> exact hok⟩
  · simp only [GM.call] at e ⊢; rw [e]
  · simp only [GM.call] at e ⊢; rw [e]; cases r <;> rfl

theorem gtame_tryMat {x : M (σ × List PEv) (Except Error α)} (h : Tame Y x) :
    GTame Y (GM.tryMat x) := by
  intro g s l o hne
  have hx : x (s, l) o ≠ none := fun e => hne (by simp only [GM.tryMat, e])
  obtain ⟨w, l', r, rfl, hu, hok⟩ := h s l o hx
  refine ⟨w, l', match r with
      | .panic => .panic
      | .done a s' o' => .done (.ok a) (if isOk a then g else { g with reset := true }) s' o', rfl,
    hu.map (fun l e => ?_) (fun l v e => ?_), by cases r <;> exact hok⟩
  · simp only [GM.tryMat] at e ⊢; rw [e]
  · simp only [GM.tryMat] at e ⊢; rw [e]; cases r <;> rfl

theorem tame_guarded {x : GM (σ × List PEv) α} (h : GTame Y x) : Tame Y (guarded x) := by
  intro s l o hne
  have hx : x ⟨o, false⟩ (s, l) o ≠ none := fun e => hne (by simp only [guarded, e])
  obtain ⟨w, l', r, rfl, hu, hok⟩ := h _ s l o hx
  refine ⟨w, l', match r with
      | .panic => .panic
      | .done a g s' o' => .done a s' (if g.reset then g.offset else o'), rfl,
    hu.map (fun l e => ?_) (fun l v e => ?_), by cases r <;> exact hok⟩
  · simp only [guarded] at e ⊢; rw [e]
  · simp only [guarded] at e ⊢; rw [e]; cases r <;> rfl

theorem tame_function {x : GM (σ × List PEv) α} (h : GTame Y x) : Tame Y (function x) := by
  intro s l o hne
  have hx : x ⟨o, false⟩ (s, l) o ≠ none := fun e => hne (by simp only [function, e])
  obtain ⟨w, l', r, rfl, hu, hok⟩ := h _ s l o hx
  refine ⟨w, l', match r with
      | .panic => .panic
      | .done a g s' o' => .done a s' o', rfl,
    hu.map (fun l e => ?_) (fun l v e => ?_), by cases r <;> exact hok⟩
  · simp only [function] at e ⊢; rw [e]
  · simp only [function] at e ⊢; rw [e]; cases r <;> rfl

theorem tame_peekCtx (f : Nat → Out α) : Tame Y (peekCtx f : M (σ × List PEv) _) :=
  tame_const fun s o => by
    simp only [peekCtx]
    rcases f o with a | e | _
    · exact ⟨.done (.ok a) s o, fun _ => rfl⟩
    · exact ⟨.done (.error e) s o, fun _ => rfl⟩
    · exact ⟨.panic, fun _ => rfl⟩

theorem tame_moveCtx (f : Nat → Res α) : Tame Y (moveCtx f : M (σ × List PEv) _) :=
  tame_const fun s o => by
    simp only [moveCtx]
    rcases f o with ⟨a, o'⟩ | ⟨e, o'⟩ | _
    · exact ⟨.done (.ok a) s o', fun _ => rfl⟩
    · exact ⟨.done (.error e) s o', fun _ => rfl⟩
    · exact ⟨.panic, fun _ => rfl⟩

theorem gtame_moved {f : Nat → Res α} {k : α → GM (σ × List PEv) γ}
    (h : ∀ o a o', f o = .ok a o' → GTame Y (k a)) :
    GTame Y (GM.call (moveCtx f) >>= fun r => GM.try_ r >>= k) := by
  intro g s l o hne
  have h := h o
  simp only [GM.bind_app, GM.call, moveCtx, GM.try_] at hne ⊢
  rcases hfo : f o with ⟨p, o'⟩ | ⟨e, o'⟩ | _
  · rw [hfo] at hne
    exact h _ _ hfo g s l o' hne
  · exact ⟨[], l, .done (.error e) g s o', rfl, uses_nil fun _ => rfl, Y.nil _⟩
  · exact ⟨[], l, .panic, rfl, uses_nil fun _ => rfl, Y.nil _⟩

/-- `Tame` is preserved by the statements. -/
def tameCong (Y : Form) : Cong (σ × List PEv) Unit where
  R x _ := Tame Y x
  GR x _ := GTame Y x
  pure_ a := tame_const fun s o => ⟨.done a s o, fun _ => rfl⟩
  panic := tame_const fun _ _ => ⟨.panic, fun _ => rfl⟩
  offset_ := tame_const fun s o => ⟨.done o s o, fun _ => rfl⟩
  setOffset_ n := tame_const fun s _ => ⟨.done () s n, fun _ => rfl⟩
  peekCtx_ f := tame_peekCtx f
  moveCtx_ f := tame_moveCtx f
  none_ := fun _ _ _ h => absurd rfl h
  bind_ h hf := tame_bind h hf
  onClone_ h := tame_onClone h
  gpure a := gtame_const fun g s o => ⟨.done (.ok a) g s o, fun _ => rfl⟩
  gtry r := gtame_const fun g s o => ⟨.done r g s o, fun _ => rfl⟩
  gbeg := gtame_const fun g s o => ⟨.done (.ok g.offset) g s o, fun _ => rfl⟩
  gprocessRet r := gtame_const fun g s o =>
    ⟨.done (.ok r) (if isOk r then g else { g with reset := true }) s o, fun _ => rfl⟩
  gcall h := gtame_call h
  gtryMat h := gtame_tryMat h
  gbind h hf := gtame_bind h hf
  guarded_ h := tame_guarded h
  function_ h := tame_function h
  gmoved h := gtame_moved h

theorem tame_mono (h : ∀ b w, Z.Ok b w → Y.Ok b w) {x : M (σ × List PEv) α} (hx : Tame Z x) :
    Tame Y x := by
  intro s l o hne
  obtain ⟨w, l', r, e, hu, hok⟩ := hx s l o hne
  exact ⟨w, l', r, e, hu, h _ _ hok⟩

/-- What `scripted` uses up. -/
theorem uses_scripted_bad {i : Nat} {x : M (σ × List PEv) (Except Error α)} {s : σ} {o : Nat} :
    Uses (fun l => scripted i x (s, l) o) [.bad i] (MRes.left (.done (.error .mutex) s o)) := by
  refine ⟨fun v => ?_, fun u e v he => ?_⟩
  · simp [scripted, MRes.left]
  · cases u with
    | nil => simp [scripted]
    | cons y u => simp at he

theorem uses_scripted_panic {i : Nat} {x : M (σ × List PEv) (Except Error α)} {s : σ} {o : Nat}
    {w : List PEv} (h : Uses (fun l => x (s, l) o) w (MRes.left .panic)) :
    Uses (fun l => scripted i x (s, l) o) (.acq i :: w) (MRes.left .panic) := by
  refine ⟨fun v => ?_, fun u e v he => ?_⟩
  · have : x (s, w ++ v) o = some .panic := h.1 v
    simp [scripted, this, MRes.left]
  · cases u with
    | nil => simp [scripted]
    | cons y u =>
      obtain ⟨rfl, he'⟩ : PEv.acq i = y ∧ w = u ++ e :: v := by simpa using he
      have : x (s, u) o = none := h.2 _ _ _ he'
      simp [scripted, this]

theorem uses_scripted_done {i : Nat} {x : M (σ × List PEv) (Except Error α)} {s s' : σ} {o o' : Nat}
    {w : List PEv} {a : Except Error α} (h : Uses (fun l => x (s, l) o) w (MRes.left (.done a s' o'))) :
    Uses (fun l => scripted i x (s, l) o) (.acq i :: (w ++ [.rel i])) (MRes.left (.done a s' o')) := by
  have key : Uses (fun l => match x (s, l) o with
      | some (.done a (st', .rel k :: w') o') => if k = i then some (.done a (st', w') o') else none
      | some (.done _ _ _) => none
      | some .panic => some .panic
      | none => none) (w ++ [.rel i]) (MRes.left (.done a s' o')) := by
    refine h.seq (z₂ := fun v => match v with
      | .rel k :: w' => if k = i then some (.done a (s', w') o') else none
      | _ => none) (fun l e => ?_) (fun l v e => ?_) ⟨fun v => ?_, fun u e v he => ?_⟩
    · rw [e]
    · rw [e]
      rcases v with _ | ⟨_ | _ | _ | _, v⟩ <;> rfl
    · simp [MRes.left]
    · cases u with
      | nil => rfl
      | cons y u => simp at he
  refine ⟨fun v => ?_, fun u e v he => ?_⟩
  · have := key.1 v
    simp only [List.cons_append, scripted]
    exact this
  · cases u with
    | nil => simp [scripted]
    | cons y u =>
      obtain ⟨rfl, he'⟩ : PEv.acq i = y ∧ w ++ [.rel i] = u ++ e :: v := by simpa using he
      have := key.2 _ _ _ he'
      simp only [scripted]
      exact this

theorem tame_scripted {i : Nat} {x : M (σ × List PEv) (Except Error α)}
    (hb : Y.Ok false [.bad i]) (hd : ∀ w, Z.Ok false w → Y.Ok false (.acq i :: (w ++ [.rel i])))
    (hp : ∀ w, Z.Ok true w → Y.Ok true (.acq i :: w)) (h : Tame Z x) : Tame Y (scripted i x) := by
  intro s l o hne
  rcases l with _ | ⟨⟨j⟩ | ⟨j⟩ | _ | _, l⟩
  · simp [scripted] at hne
  · by_cases hj : j = i
    · subst hj
      have hx : x (s, l) o ≠ none := fun e => hne (by simp [scripted, e])
      obtain ⟨w, l', r, rfl, hu, hok⟩ := h s l o hx
      cases r with
      | panic => exact ⟨_, l', .panic, rfl, uses_scripted_panic hu, hp _ hok⟩
      | done a s' o' =>
        have hx' : x (s, w ++ l') o = some (.done a (s', l') o') := hu.1 l'
        rcases l' with _ | ⟨⟨k⟩ | ⟨k⟩ | ⟨k⟩ | _, l'⟩ <;>
          simp only [scripted, if_pos, hx', ne_eq, not_true_eq_false] at hne
        by_cases hk : k = j
        · subst hk
          exact ⟨PEv.acq k :: (w ++ [PEv.rel k]), l', .done a s' o', by simp, uses_scripted_done hu, hd w hok⟩
        · simp [hk] at hne
    · simp [scripted, hj] at hne
  · by_cases hj : j = i
    · subst hj
      exact ⟨[.bad j], l, _, rfl, uses_scripted_bad, hb⟩
    · simp [scripted, hj] at hne
  · simp [scripted] at hne
  · simp [scripted] at hne

/-! ## Doing what the plain program does -/

def Obeys (Y : Form) (x : M (σ × List PEv) α) (y : M σ α) : Prop := ∀ s o r, y s o = some r →
  ∃ w, Uses (fun l => x (s, l) o) w (MRes.left r) ∧ Y.Ok r.isPanic w

def GObeys (Y : Form) (x : GM (σ × List PEv) α) (y : GM σ α) : Prop := ∀ g s o r, y g s o = some r →
  ∃ w, Uses (fun l => x g (s, l) o) w (GRes.left r) ∧ Y.Ok r.isPanic w

theorem obeys_const {x : M (σ × List PEv) α} {y : M σ α}
    (h : ∀ s o, ∃ r, y s o = some r ∧ ∀ l, x (s, l) o = some (MRes.left r l)) : Obeys Y x y := by
  intro s o r hr
  obtain ⟨r', h1, h2⟩ := h s o
  rw [h1] at hr; cases hr
  exact ⟨[], uses_nil h2, Y.nil _⟩

theorem gobeys_const {x : GM (σ × List PEv) α} {y : GM σ α}
    (h : ∀ g s o, ∃ r, y g s o = some r ∧ ∀ l, x g (s, l) o = some (GRes.left r l)) : GObeys Y x y := by
  intro g s o r hr
  obtain ⟨r', h1, h2⟩ := h g s o
  rw [h1] at hr; cases hr
  exact ⟨[], uses_nil h2, Y.nil _⟩

theorem obeys_bind {x : M (σ × List PEv) α} {y : M σ α} {f : α → M (σ × List PEv) γ} {f' : α → M σ γ}
    (h : Obeys Y x y) (hf : ∀ a, Obeys Y (f a) (f' a)) : Obeys Y (x >>= f) (y >>= f') := by
  intro s o r hr
  rw [M.bind_app] at hr
  rcases hy : y s o with _ | (⟨a, s', o'⟩ | _)
  · rw [hy] at hr; cases hr
  · rw [hy] at hr
    obtain ⟨w, hu, hok⟩ := h s o _ hy
    obtain ⟨w₂, hu₂, hok₂⟩ := hf a s' o' r hr
    refine ⟨w ++ w₂, hu.seq (fun l e => ?_) (fun l v e => ?_) hu₂, Y.app _ _ _ hok hok₂⟩
    · simp only [M.bind_app] at e ⊢; rw [e]
    · simp only [M.bind_app] at e ⊢; rw [e]; rfl
  · rw [hy] at hr; cases hr
    obtain ⟨w, hu, hok⟩ := h s o _ hy
    refine ⟨w, hu.map (fun l e => ?_) (fun l v e => ?_), hok⟩
    · simp only [M.bind_app] at e ⊢; rw [e]
    · simp only [M.bind_app] at e ⊢; rw [e]; rfl

theorem gobeys_bind {x : GM (σ × List PEv) α} {y : GM σ α} {f : α → GM (σ × List PEv) γ}
    {f' : α → GM σ γ} (h : GObeys Y x y) (hf : ∀ a, GObeys Y (f a) (f' a)) :
    GObeys Y (x >>= f) (y >>= f') := by
  intro g s o r hr
  rw [GM.bind_app] at hr
  rcases hy : y g s o with _ | (⟨a, g', s', o'⟩ | _)
  · rw [hy] at hr; cases hr
  · rw [hy] at hr
    obtain ⟨w, hu, hok⟩ := h g s o _ hy
    cases a with
    | error er =>
      cases hr
      refine ⟨w, hu.map (fun l e => ?_) (fun l v e => ?_), hok⟩
      · simp only [GM.bind_app] at e ⊢; rw [e]
      · simp only [GM.bind_app] at e ⊢; rw [e]; rfl
    | ok a =>
      obtain ⟨w₂, hu₂, hok₂⟩ := hf a g' s' o' r hr
      refine ⟨w ++ w₂, hu.seq (fun l e => ?_) (fun l v e => ?_) hu₂, Y.app _ _ _ hok hok₂⟩
      · simp only [GM.bind_app] at e ⊢; rw [e]
      · simp only [GM.bind_app] at e ⊢; rw [e]; rfl
  · rw [hy] at hr; cases hr
    obtain ⟨w, hu, hok⟩ := h g s o _ hy
    refine ⟨w, hu.map (fun l e => ?_) (fun l v e => ?_), hok⟩
    · simp only [GM.bind_app] at e ⊢; rw [e]
    · simp only [GM.bind_app] at e ⊢; rw [e]; rfl

theorem obeys_onClone {x : M (σ × List PEv) α} {y : M σ α} (h : Obeys Y x y) :
    Obeys Y (onClone x) (onClone y) := by
  intro s o r hr
  simp only [onClone] at hr
  rcases hy : y s 0 with _ | (⟨a, s', o'⟩ | _) <;> rw [hy] at hr <;> cases hr <;>
    obtain ⟨w, hu, hok⟩ := h s 0 _ hy <;>
    refine ⟨w, hu.map (fun l e => ?_) (fun l v e => ?_), hok⟩ <;>
    simp only [onClone] at e ⊢ <;> rw [e] <;> rfl

theorem gobeys_call {x : M (σ × List PEv) α} {y : M σ α} (h : Obeys Y x y) :
    GObeys Y (GM.call x) (GM.call y) := by
  intro g s o r hr
  simp only [GM.call] at hr
  rcases hy : y s o with _ | (⟨a, s', o'⟩ | _) <;> rw [hy] at hr <;> cases hr <;>
    obtain ⟨w, hu, hok⟩ := h s o _ hy <;>
    refine ⟨w, hu.map (fun l e => ?_) (fun l v e => ?_), hok⟩ <;>
    simp only [GM.call] at e ⊢ <;> rw [e] <;> rfl

theorem gobeys_tryMat {x : M (σ × List PEv) (Except Error α)} {y : M σ (Except Error α)}
    (h : Obeys Y x y) : GObeys Y (GM.tryMat x) (GM.tryMat y) := by
  intro g s o r hr
  simp only [GM.tryMat] at hr
  rcases hy : y s o with _ | (⟨a, s', o'⟩ | _) <;> rw [hy] at hr <;> cases hr <;>
    obtain ⟨w, hu, hok⟩ := h s o _ hy <;>
    refine ⟨w, hu.map (fun l e => ?_) (fun l v e => ?_), hok⟩ <;>
    simp only [GM.tryMat] at e ⊢ <;> rw [e] <;> rfl

theorem obeys_guarded {x : GM (σ × List PEv) α} {y : GM σ α} (h : GObeys Y x y) :
    Obeys Y (guarded x) (guarded y) := by
  intro s o r hr
  simp only [guarded] at hr
  rcases hy : y ⟨o, false⟩ s o with _ | (⟨a, g, s', o'⟩ | _) <;> rw [hy] at hr <;> cases hr <;>
    obtain ⟨w, hu, hok⟩ := h _ s o _ hy <;>
    refine ⟨w, hu.map (fun l e => ?_) (fun l v e => ?_), hok⟩ <;>
    simp only [guarded] at e ⊢ <;> rw [e] <;> rfl

theorem obeys_function {x : GM (σ × List PEv) α} {y : GM σ α} (h : GObeys Y x y) :
    Obeys Y (function x) (function y) := by
  intro s o r hr
  simp only [function] at hr
  rcases hy : y ⟨o, false⟩ s o with _ | (⟨a, g, s', o'⟩ | _) <;> rw [hy] at hr <;> cases hr <;>
    obtain ⟨w, hu, hok⟩ := h _ s o _ hy <;>
    refine ⟨w, hu.map (fun l e => ?_) (fun l v e => ?_), hok⟩ <;>
    simp only [function] at e ⊢ <;> rw [e] <;> rfl

theorem obeys_peekCtx (f : Nat → Out α) :
    Obeys Y (peekCtx f : M (σ × List PEv) _) (peekCtx f : M σ _) :=
  obeys_const fun s o => by
    simp only [peekCtx]
    rcases f o with a | e | _ <;> exact ⟨_, rfl, fun _ => rfl⟩

theorem obeys_moveCtx (f : Nat → Res α) :
    Obeys Y (moveCtx f : M (σ × List PEv) _) (moveCtx f : M σ _) :=
  obeys_const fun s o => by
    simp only [moveCtx]
    rcases f o with ⟨a, o'⟩ | ⟨e, o'⟩ | _ <;> exact ⟨_, rfl, fun _ => rfl⟩

theorem gobeys_moved {f : Nat → Res α} {k : α → GM (σ × List PEv) γ} {k' : α → GM σ γ}
    (h : ∀ o a o', f o = .ok a o' → GObeys Y (k a) (k' a)) :
    GObeys Y (GM.call (moveCtx f) >>= fun r => GM.try_ r >>= k)
      (GM.call (moveCtx f) >>= fun r => GM.try_ r >>= k') := by
  intro g s o r hr
  have h := h o
  simp only [GM.bind_app, GM.call, moveCtx, GM.try_] at hr ⊢
  rcases hfo : f o with ⟨p, o'⟩ | ⟨e, o'⟩ | _
  · rw [hfo] at hr
    exact h _ _ hfo g s o' r hr
  · rw [hfo] at hr; cases hr
    exact ⟨[], uses_nil fun _ => rfl, Y.nil _⟩
  · rw [hfo] at hr; cases hr
    exact ⟨[], uses_nil fun _ => rfl, Y.nil _⟩

/-- `Obeys` is preserved by the statements. -/
def obeyCong (Y : Form) : Cong (σ × List PEv) σ where
  R := Obeys Y
  GR := GObeys Y
  pure_ _ := obeys_const fun _ _ => ⟨_, rfl, fun _ => rfl⟩
  panic := obeys_const fun _ _ => ⟨_, rfl, fun _ => rfl⟩
  offset_ := obeys_const fun _ _ => ⟨_, rfl, fun _ => rfl⟩
  setOffset_ _ := obeys_const fun _ _ => ⟨_, rfl, fun _ => rfl⟩
  peekCtx_ := obeys_peekCtx
  moveCtx_ := obeys_moveCtx
  none_ := fun _ _ _ h => by cases h
  bind_ := obeys_bind
  onClone_ := obeys_onClone
  gpure _ := gobeys_const fun _ _ _ => ⟨_, rfl, fun _ => rfl⟩
  gtry _ := gobeys_const fun _ _ _ => ⟨_, rfl, fun _ => rfl⟩
  gbeg := gobeys_const fun _ _ _ => ⟨_, rfl, fun _ => rfl⟩
  gprocessRet _ := gobeys_const fun _ _ _ => ⟨_, rfl, fun _ => rfl⟩
  gcall := gobeys_call
  gtryMat := gobeys_tryMat
  gbind := gobeys_bind
  guarded_ := obeys_guarded
  function_ := obeys_function
  gmoved := gobeys_moved

end Neure
