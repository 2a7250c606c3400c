import Verif.PropsCtorComb
/-!
# C52: what the primitive constructors do

The base cases of `construct`: a primitive pattern (literal, unit repetition,
anchor, …), `pat()`, `map`/`try_map` and a reference to a recursive rule.
-/

namespace Neure

set_option linter.unusedSectionVars false
set_option linter.unusedSimpArgs false

open Demo

variable {ι β σ : Type} [Item ι] {G : Rules ι β} {H : Handler ι β σ} {pol : Option (Pat ι β)}
  {d : List ι}

theorem invokeK_ok {st st' : σ} {o' : Nat} {v : Val β} {r : Option (Res Span)} :
    invokeK H d st r = some (.ok v st' o') ↔
      ∃ s b, r = some (.ok s o') ∧ H d o' s st = (.ok b, st') ∧ v = .base b := by
  unfold invokeK caseM
  rcases r with _ | (⟨s, o1⟩ | ⟨e, o1⟩ | _) <;> simp
  rcases h : H d o1 s st with ⟨_ | _ | _, st1⟩ <;> simp <;> grind

theorem invokeK_err {st st' : σ} {o' : Nat} {e : Error} {r : Option (Res Span)} :
    invokeK H d st r = some (.err e st' o') ↔
      (r = some (.err e o') ∧ st' = st) ∨
      ∃ s, r = some (.ok s o') ∧ H d o' s st = (.err e, st') := by
  unfold invokeK caseM
  rcases r with _ | (⟨s, o1⟩ | ⟨e, o1⟩ | _) <;> simp
  · rcases h : H d o1 s st with ⟨_ | _ | _, st1⟩ <;> simp <;> grind
  · grind

theorem invokeK_panic {st : σ} {r : Option (Res Span)} :
    invokeK H d st r = some .panic ↔
      r = some .panic ∨ ∃ s o' st', r = some (.ok s o') ∧ H d o' s st = (.panic, st') := by
  unfold invokeK caseM
  rcases r with _ | (⟨s, o1⟩ | ⟨e, o1⟩ | _) <;> simp
  rcases h : H d o1 s st with ⟨_ | _ | _, st1⟩ <;> simp <;> grind

/-- **C52 (primitive patterns, constructing).** Constructing a literal, a unit
repetition, an anchor, … matches it through `ctx.try_mat` and then gives the
span to the handler, once; the value is what the handler returns, the offset is
the one after the match whether or not the handler accepts, and on a failed match
the handler is not called. -/
theorem C52_primitive_construct (p : Pat ι β) (hp : Leaf p) (st : σ) (o : Nat) :
    (∀ v st' o', Constructs G H pol d p st o (.ok v st' o') ↔
      ∃ s b, Runs G pol d p o (.ok s o') ∧ H d o' s st = (.ok b, st') ∧ v = .base b) ∧
    (∀ e st' o', Constructs G H pol d p st o (.err e st' o') ↔
      (Runs G pol d p o (.err e o') ∧ st' = st) ∨
      ∃ s, Runs G pol d p o (.ok s o') ∧ H d o' s st = (.err e, st')) ∧
    (Constructs G H pol d p st o .panic ↔
      Runs G pol d p o .panic ∨
      ∃ s o' st', Runs G pol d p o (.ok s o') ∧ H d o' s st = (.panic, st')) := by
  simp only [con_iff, run_iff, conL_leaf G H pol d st o hp]
  exact ⟨fun _ _ _ => invokeK_ok, fun _ _ _ => invokeK_err, invokeK_panic⟩

example : Leaf (ι := Char) (β := Nat) (.lit ['a', 'b']) ∧
    Constructs (σ := Nat) G0 lenH none ['x', 'a', 'b'] (.lit ['a', 'b']) 5 1 (.ok (.base 2) 6 3) :=
  ⟨trivial, 2, by decide⟩

/-- **C52 (`pat()`, constructing).** `p.pat()` does the same with any pattern
`p`: only matched, the handler called once, with the whole span. -/
theorem C52_pat_construct (p : Pat ι β) (st : σ) (o : Nat) :
    (∀ v st' o', Constructs G H pol d (.pat p) st o (.ok v st' o') ↔
      ∃ s b, Runs G pol d p o (.ok s o') ∧ H d o' s st = (.ok b, st') ∧ v = .base b) ∧
    (∀ e st' o', Constructs G H pol d (.pat p) st o (.err e st' o') ↔
      (Runs G pol d p o (.err e o') ∧ st' = st) ∨
      ∃ s, Runs G pol d p o (.ok s o') ∧ H d o' s st = (.err e, st')) ∧
    (Constructs G H pol d (.pat p) st o .panic ↔
      Runs G pol d p o .panic ∨
      ∃ s o' st', Runs G pol d p o (.ok s o') ∧ H d o' s st = (.panic, st')) := by
  simp only [con_iff, run_iff, conL_pat]
  exact ⟨fun _ _ _ => invokeK_ok, fun _ _ _ => invokeK_err, invokeK_panic⟩

example : Constructs (σ := Nat) G0 lenH none ['a', 'b', 'c'] (.pat (.thn (.lit ['a']) (.lit ['b', 'c']))) 0 0
    (.ok (.base 3) 1 3) := ⟨4, by decide⟩

/-- **C52 (`ctx.map_handler`).** What `ctx.map_handler(&p, h)` (hence `ctx.map`,
`map_with`, `map_span`) does is what constructing `p.pat()` does. -/
theorem C52_map_handler (p : Pat ι β) (st : σ) (o : Nat) (r : CRes σ (Val β)) :
    MapHandler G H pol d p st o r ↔ Constructs G H pol d (.pat p) st o r := by
  have hx : MapHandler G H pol d p st o r ↔ invokeK H d st (matL G pol d p o) = some r := by
    rcases r with ⟨v, st', o'⟩ | ⟨e, st', o'⟩ | _
    · simp only [MapHandler, invokeK_ok, ← run_iff, Runs]; grind
    · simp only [MapHandler, invokeK_err, ← run_iff, Runs]; grind
    · simp only [MapHandler, invokeK_panic, ← run_iff, Runs]; grind
  rw [hx, con_iff, conL_pat]

example : MapHandler (σ := Nat) G0 lenH none ['a', 'b', 'c'] (.thn (.lit ['a']) (.lit ['b', 'c'])) 0 0
    (.ok (.base 3) 1 3) := ⟨4, by decide⟩

/-- **C52 (`map` and `try_map`, constructing).** The mapper is applied, once, to
the value built by `p`: an error of `p` is passed on untouched, an error of the
mapper becomes the error of the whole, with the offset where `p` stopped. -/
theorem C52_map_construct (p : Pat ι β) (f : Val β → Out (Val β)) (st : σ) (o : Nat) :
    (∀ w st' o', Constructs G H pol d (.map p f) st o (.ok w st' o') ↔
      ∃ v, Constructs G H pol d p st o (.ok v st' o') ∧ f v = .ok w) ∧
    (∀ e st' o', Constructs G H pol d (.map p f) st o (.err e st' o') ↔
      Constructs G H pol d p st o (.err e st' o') ∨
      ∃ v, Constructs G H pol d p st o (.ok v st' o') ∧ f v = .err e) ∧
    (Constructs G H pol d (.map p f) st o .panic ↔
      Constructs G H pol d p st o .panic ∨
      ∃ v st' o', Constructs G H pol d p st o (.ok v st' o') ∧ f v = .panic) := by
  have hT : ∀ (v : Val β) (st1 : σ) (o1 : Nat) (r : CRes σ (Val β)),
      caseT (f v) (fun w => some (.ok w st1 o1)) (fun e => some (.err e st1 o1)) = some r ↔
      (∃ w, f v = .ok w ∧ r = .ok w st1 o1) ∨ (∃ e, f v = .err e ∧ r = .err e st1 o1) ∨
        (f v = .panic ∧ r = .panic) := by
    intro v st1 o1 r
    unfold caseT
    rcases f v with _ | _ | _ <;> simp <;> grind
  simp only [con_iff, conL_map, caseC_some, hT]
  refine ⟨?_, ?_, ?_⟩
  · grind
  · grind
  · grind

example : Constructs (σ := Nat) G0 lenH none ['a', 'b'] (.map (.lit ['a', 'b']) fun
    | .base n => .ok (.base (n + 40)) | _ => .err .option) 0 0 (.ok (.base 42) 1 2) ∧
    Constructs (σ := Nat) G0 lenH none ['a', 'b'] (.map (.lit ['a', 'b']) fun _ => .err (.uid 3)) 0 0
      (.err (.uid 3) 1 2) := ⟨⟨3, by decide⟩, ⟨3, by decide⟩⟩

/-- **C52 (recursive rules, constructing).** Constructing a reference to a rule
is constructing the rule's body; a rule that is not defined gives an error with
nothing consumed and no handler call. -/
theorem C52_rule_construct (i : Nat) (st : σ) (o : Nat) (r : CRes σ (Val β)) :
    (∀ q, G i = some q → (Constructs G H pol d (.cell i) st o r ↔ Constructs G H pol d q st o r)) ∧
    (G i = none → (Constructs G H pol d (.cell i) st o r ↔ r = .err .option st o)) := by
  simp only [con_iff, conL_cell]
  refine ⟨fun q hq => by simp [hq], fun hn => by simp [hn]; grind⟩

example : Constructs (σ := Nat) (fun | 0 => some (.lit ['a', 'b']) | _ => none) lenH none ['a', 'b']
    (.cell 0) 0 0 (.ok (.base 2) 1 2) := ⟨4, by decide⟩

end Neure
