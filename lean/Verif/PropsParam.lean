import Verif.Param
import Verif.PropsJson
/-!
# C76: values do not steer the parser

`Parallel ρ G G' R` (`ParamSpec.lean`): the two grammars are the same combinator by
combinator, their mappers, tags and dynamic builders respect the correspondence `ρ`
of values.  `RHandler τ ρ d H H'`: the handlers respect it too.  Then both grammars
match the same texts, stop at the same places with the same errors, and build
corresponding values.
-/

namespace Neure

set_option linter.unusedSectionVars false
set_option linter.unusedSimpArgs false

open Demo

variable {ι β β' σ σ' : Type} [Item ι] {ρ : β → β' → Prop} {τ : σ → σ' → Prop}
  {G : Rules ι β} {G' : Rules ι β'} {R : Pat ι β → Pat ι β' → Prop}

/-- **C76 (matching).** Grammars that differ only in their values match alike: `try_mat`
of the one has exactly the outcomes of `try_mat` of the other (success, span, error,
position, panic, not returning), in contexts with corresponding policies. -/
theorem C76_matching (hR : Parallel ρ G G' R) {pol : Option (Pat ι β)} {pol' : Option (Pat ι β')}
    (hpol : ROpt R pol pol') {p : Pat ι β} {p' : Pat ι β'} (hp : R p p') (d : List ι) (o : Nat)
    (r : Res Span) : Runs G pol d p o r ↔ Runs G' pol' d p' o r := by
  constructor
  · rintro ⟨n, h⟩
    exact ⟨n, by rw [← Param.tryMat_eq hR n hpol d p p' o hp]; exact h⟩
  · rintro ⟨n, h⟩
    exact ⟨n, by rw [Param.tryMat_eq hR n hpol d p p' o hp]; exact h⟩

/-- **C76 (building).** Whatever the one grammar builds with the one handler, the other
builds with the other handler up to the correspondence, and conversely: same kind of
outcome, same position, same error, corresponding values, handlers left in
corresponding states.  In particular the one returns if and only if the other does. -/
theorem C76_building (hR : Parallel ρ G G' R) {H : Handler ι β σ} {H' : Handler ι β' σ'}
    {d : List ι} (hH : RHandler τ ρ d H H') {pol : Option (Pat ι β)} {pol' : Option (Pat ι β')}
    (hpol : ROpt R pol pol') {p : Pat ι β} {p' : Pat ι β'} (hp : R p p') {st : σ} {st' : σ'}
    (hs : τ st st') (o : Nat) :
    (∀ r, Constructs G H pol d p st o r →
      ∃ r', Constructs G' H' pol' d p' st' o r' ∧ RRes τ (RVal ρ) r r') ∧
    (∀ r', Constructs G' H' pol' d p' st' o r' →
      ∃ r, Constructs G H pol d p st o r ∧ RRes τ (RVal ρ) r r') := by
  have key := fun n => Param.con_ro hH hR n hpol p p' o hp hs
  constructor
  · rintro r ⟨n, h⟩
    have := key n
    rw [h] at this
    generalize hy : con G' H' n pol' d p' st' o = y at this
    cases this with
    | some hr => exact ⟨_, ⟨n, hy⟩, hr⟩
  · rintro r ⟨n, h⟩
    have := key n
    rw [h] at this
    generalize hy : con G H n pol d p st o = y at this
    cases this with
    | some hr => exact ⟨_, ⟨n, hy⟩, hr⟩

theorem rval_conv {h : β → β'} {v : Val β} {v' : Val β'} :
    RVal (fun a b => b = h a) v v' ↔ v' = v.conv h := by
  constructor
  · intro hv
    induction hv with
    | base hb => rw [hb]; rfl
    | pair _ _ i1 i2 => simp only [Val.conv, i1, i2]
    | none => rfl
    | some _ i => simp only [Val.conv, i]
    | nil => rfl
    | cons _ _ i1 i2 => simp only [Val.conv, i1, i2]
  · rintro rfl
    induction v with
    | base b => exact .base rfl
    | pair _ _ i1 i2 => exact .pair i1 i2
    | none => exact .none
    | some _ i => exact .some i
    | nil => exact .nil
    | cons _ _ i1 i2 => exact .cons i1 i2

/-- **C76 (converting afterwards).** Let the second handler return what the first
returns, converted by `h`, and let the mappers commute with the conversion.  Then
building with the second is building with the first and converting the leaves of the
result: for instance `ctor_with(|span| Ok(h(span)))` is `ctor_span` followed by `h`. -/
theorem C76_convert (h : β → β') (hR : Parallel (fun a b => b = h a) G G' R) {H : Handler ι β σ}
    {H' : Handler ι β' σ} {d : List ι}
    (hH : ∀ o s st, H' d o s st = ((H d o s st).1.conv h, (H d o s st).2))
    {pol : Option (Pat ι β)} {pol' : Option (Pat ι β')} (hpol : ROpt R pol pol') {p : Pat ι β}
    {p' : Pat ι β'} (hp : R p p') (st : σ) (o : Nat) :
    (∀ v st' o', Constructs G H pol d p st o (.ok v st' o') →
      Constructs G' H' pol' d p' st o (.ok (v.conv h) st' o')) ∧
    (∀ e st' o', Constructs G H pol d p st o (.err e st' o') ↔
      Constructs G' H' pol' d p' st o (.err e st' o')) ∧
    (Constructs G H pol d p st o .panic ↔ Constructs G' H' pol' d p' st o .panic) := by
  have hH' : RHandler (· = ·) (fun a b => b = h a) d H H' := by
    intro o s st _ hst
    cases hst
    rw [hH]
    refine ⟨?_, rfl⟩
    simp only
    cases (H d o s st).1 with
    | ok b => exact .ok rfl
    | err e => exact .err e
    | panic => exact .panic
  obtain ⟨h1, h2⟩ := C76_building (τ := (· = ·)) hR hH' hpol hp (st := st) rfl o
  refine ⟨?_, ?_, ?_⟩
  · intro v st' o' hc
    obtain ⟨r', hc', hr⟩ := h1 _ hc
    cases hr with
    | ok _ hv hs => rw [rval_conv] at hv; subst hv; subst hs; exact hc'
  · intro e st' o'
    constructor
    · intro hc
      obtain ⟨r', hc', hr⟩ := h1 _ hc
      cases hr with
      | err _ _ hs => subst hs; exact hc'
    · intro hc
      obtain ⟨r', hc', hr⟩ := h2 _ hc
      cases hr with
      | err _ _ hs => subst hs; exact hc'
  · constructor
    · intro hc
      obtain ⟨r', hc', hr⟩ := h1 _ hc
      cases hr
      exact hc'
    · intro hc
      obtain ⟨r', hc', hr⟩ := h2 _ hc
      cases hr
      exact hc'

/-- **C76 (handlers).** A grammar without mappers, dynamic value builders and tags behaves
the same with every two handlers that never fail: the same success, the same end, the
same error, and values of the same structure, leaf for leaf. -/
theorem C76_handlers {G : Rules ι β} {p : Pat ι β} (hp : All G Bare p)
    {pol : Option (Pat ι β)} (hpol : ∀ q, pol = some q → All G Bare q) {d : List ι}
    {H : Handler ι β σ} {H' : Handler ι β σ'} (hH : ∀ o s st, ∃ b st', H d o s st = (.ok b, st'))
    (hH' : ∀ o s st, ∃ b st', H' d o s st = (.ok b, st')) (st : σ) (st' : σ') (o : Nat)
    (r : CRes σ (Val β)) (h : Constructs G H pol d p st o r) :
    ∃ r', Constructs G H' pol d p st' o r' ∧
      RRes (fun _ _ => True) (RVal fun _ _ => True) r r' := by
  let R : Pat ι β → Pat ι β → Prop := fun q q' => q' = q ∧ All G Bare q
  have hR : Parallel (fun _ _ => True) G G R := by
    rintro q _ ⟨rfl, hq⟩
    exact Param.alike_self hq.self fun c hc => ⟨rfl, hq.child hc⟩
  have hh : RHandler (fun _ _ => True) (fun _ _ => True) d H H' := by
    intro o s st st' _
    obtain ⟨b, s1, h1⟩ := hH o s st
    obtain ⟨b', s2, h2⟩ := hH' o s st'
    rw [h1, h2]
    exact ⟨.ok trivial, trivial⟩
  have hpol' : ROpt R pol pol := by
    cases pol with
    | none => exact .none
    | some q => exact .some ⟨rfl, hpol q rfl⟩
  exact (C76_building hR hh hpol' (⟨rfl, hp⟩ : R p p) (st := st) (st' := st') trivial o).1 r h

/-! ## Non-vacuity -/

/-- `digits.sep(",")` with spans, and the same with numbers made from the spans. -/
private def runs (β : Type) : Pat Char β :=
  .sep (.many1 (.range ⟨.incl 48, .incl 57⟩) .empty) (.lit [',']) true 1

example (d : List Char) (o : Nat) (v : Val Span) (o' : Nat)
    (h : Constructs G0 spanH none d (runs Span) () o (.ok v () o')) :
    Constructs G0 (fun _ _ s st => (.ok s.len, st)) none d (runs Nat) () o
      (.ok (v.conv Span.len) () o') := by
  refine (C76_convert (R := Grow _ G0 G0 fun _ _ => False) Span.len
    (Param.grow_parallel fun _ _ h => absurd h id) (H := spanH) (fun o s st => rfl) .none ?_
    () o).1 v () o' h
  exact .step (.sep _ _ (.step (.many1 _ .empty)) (.step (.lit _)))

example : Constructs G0 (σ := Unit) spanH none "12,3;".toList (runs Span) () 0
    (.ok (.list [.base ⟨0, 2⟩, .base ⟨3, 1⟩]) () 4) := ⟨5, by decide +kernel⟩

example : All G0 Bare (runs Nat) := by
  refine .intro trivial fun q hq => ?_
  rcases hq with rfl | rfl
  · exact .intro trivial fun _ hc => absurd hc id
  · exact .intro trivial fun _ hc => absurd hc id

/-- Without the condition on mappers the claim is false: a mapper may refuse a value,
and then the handler decides which alternative is taken and where parsing ends. -/
theorem C76_handlers_needs_bare :
    let p : Pat Char Nat := .or (.map (.lit ['a', 'a']) fun
      | .base 0 => .err (.uid 0)
      | v => .ok v) (.lit ['a'])
    Constructs G0 (fun _ _ _ st => (.ok 0, st)) none ['a', 'a'] p () 0 (.ok (.base 0) () 1) ∧
    Constructs G0 (fun _ _ _ st => (.ok 1, st)) none ['a', 'a'] p () 0 (.ok (.base 1) () 2) :=
  ⟨⟨5, by decide +kernel⟩, ⟨5, by decide +kernel⟩⟩

/-! ## The numbers of the JSON parser -/

section
variable {ν ν' : Type}

mutual
/-- The same document with other numbers. -/
def Json.mapNum (h : ν → ν') : Json ν → Json ν'
  | .null => .null
  | .bool b => .bool b
  | .str s => .str s
  | .num x => .num (h x)
  | .arr l => .arr (Json.mapNums h l)
  | .obj l => .obj (Json.mapMembers h l)
def Json.mapNums (h : ν → ν') : List (Json ν) → List (Json ν')
  | [] => []
  | j :: l => j.mapNum h :: Json.mapNums h l
def Json.mapMembers (h : ν → ν') : List (List UInt8 × Json ν) → List (List UInt8 × Json ν')
  | [] => []
  | (k, j) :: l => (k, j.mapNum h) :: Json.mapMembers h l
end

/-- A slice stays, a document gets other numbers. -/
def JVal.mapNum (h : ν → ν') : JVal ν → JVal ν'
  | .slice l => .slice l
  | .json j => .json (j.mapNum h)

theorem toElems_conv (h : ν → ν') (v : Val (JVal ν)) :
    toElems (v.conv (JVal.mapNum h)) = (toElems v).map (Json.mapNums h) := by
  induction v with
  | cons a l _ ih =>
    cases a with
    | base b =>
      cases b with
      | slice _ => rfl
      | json j =>
        simp only [Val.conv, JVal.mapNum, toElems, ih]
        cases toElems l <;> rfl
    | _ => rfl
  | nil => rfl
  | _ => rfl

theorem toMembers_conv (h : ν → ν') (v : Val (JVal ν)) :
    toMembers (v.conv (JVal.mapNum h)) = (toMembers v).map (Json.mapMembers h) := by
  induction v with
  | cons a l _ ih =>
    cases a with
    | pair a b =>
      cases a with
      | base a =>
        cases a with
        | slice k =>
          cases b with
          | base b =>
            cases b with
            | slice _ => rfl
            | json j =>
              simp only [Val.conv, JVal.mapNum, toMembers, ih]
              cases toMembers l <;> rfl
          | _ => rfl
        | json _ => rfl
      | _ => rfl
    | base b => cases b <;> rfl
    | _ => rfl
  | nil => rfl
  | _ => rfl

/-- Numbers read with another conversion. -/
def JConv.map (h : ν → ν') (cv : JConv ν) : JConv ν' := ⟨fun l => (cv.num l).map h, cv.str⟩

/-- **C76 (the JSON example).** The numbers of a document do not steer the JSON parser:
reading them with another conversion gives the same document with the numbers
converted, ends at the same place, and fails with the same error. -/
theorem C76_json (h : ν → ν') (cv : JConv ν) (d : List UInt8) :
    (∀ j o', JsonParse cv d (.ok (.base (.json j)) () o') →
      JsonParse (cv.map h) d (.ok (.base (.json (j.mapNum h))) () o')) ∧
    (∀ e o', JsonParse cv d (.err e () o') ↔
      JsonParse (cv.map h) d (.err e () o')) := by
  let ρ : JVal ν → JVal ν' → Prop := fun a b => b = JVal.mapNum h a
  let G := jsonRules cv
  let G' := jsonRules (cv.map h)
  let S : Pat UInt8 (JVal ν) → Pat UInt8 (JVal ν') → Prop := fun p p' =>
    p = .or (jObject cv) (jArray cv) ∧
      p' = .or (jObject (cv.map h)) (jArray (cv.map h))
  have ws : Grow ρ G G' S jWs jWs := .step (.many0 _ .empty)
  have lit (l) : Grow ρ G G' S (.lit l) (.lit l) := .step (.lit l)
  have dig : Grow ρ G G' S jDigit jDigit := .step (.many1 _ .empty)
  have num : Grow ρ G G' S (jNum cv) (jNum (cv.map h)) := by
    refine .step (.map (.step (.pat (.step (.thn (.step (.thn (.step (.optU _ .empty)) dig))
      (.step (.or (.step (.pat (.step (.thn (lit _) dig)))) (.step .empty))))))) ?_)
    rintro v v' hv
    obtain rfl := rval_conv.mp hv
    cases v with
    | base b =>
      cases b with
      | slice l =>
        simp only [Val.conv, JVal.mapNum]
        simp only [JConv.map]
        cases cv.num l with
        | ok x => exact .ok (.base rfl)
        | error e => exact .err e
      | json _ => exact .panic
    | _ => exact .panic
  have str : Grow ρ G G' S (jStr cv) (jStr (cv.map h)) := by
    refine .step (.map (.step (.enclose (lit _) ?_ (lit _))) ?_)
    · refine .step (.pat (.step (.rep _ (.step (.or (.step (.many1 _ ?_)) ?_)))))
      · exact .regex (.step (.assert _ (.step (.thenU _ _ .empty))))
      · exact .step (.thenU _ _ .empty)
    · rintro v v' hv
      obtain rfl := rval_conv.mp hv
      cases v with
      | base b => cases b with
        | slice l =>
          simp only [Val.conv, JVal.mapNum, JConv.map]
          cases cv.str l with
          | ok _ => exact .ok (.base rfl)
          | error e => exact .err e
        | json _ => exact .panic
      | _ => exact .panic
  have core : Grow ρ G G' S (jCore cv) (jCore (cv.map h)) := by
    refine .step (.or num (.step (.or str (.step (.or ?_ (.step (.or ?_ (.step (.or ?_ ?_)))))))))
    · exact .step (.map (lit _) fun _ _ _ => .ok (.base rfl))
    · exact .step (.map (lit _) fun _ _ _ => .ok (.base rfl))
    · exact .step (.map (lit _) fun _ _ _ => .ok (.base rfl))
    · exact .step (.cell (i := 0) (j := 0) rfl rfl (.base ⟨rfl, rfl⟩))
  have ele : Grow ρ G G' S (jEle cv) (jEle (cv.map h)) :=
    .step (.pre ws (.step (.suf core ws)))
  have key : Grow ρ G G' S jKey jKey :=
    .step (.pre ws (.step (.suf (.step (.enclose (lit _) (.step (.many1 _ .empty)) (lit _))) ws)))
  have hR : Parallel ρ G G' (Grow ρ G G' S) := by
    refine Param.grow_parallel ?_
    rintro p p' ⟨rfl, rfl⟩
    refine .or ?_ ?_
    · refine .step (.map (.step (.enclose (lit _) (.step (.sep _ _
        (.step (.sepOnce key (lit _) ele)) (lit _))) (lit _))) ?_)
      rintro v v' hv
      obtain rfl := rval_conv.mp hv
      simp only [toMembers_conv]
      cases toMembers v with
      | none => exact .panic
      | some l => exact .ok (.base rfl)
    · refine .step (.map (.step (.enclose (lit _) (.step (.sep _ _ ele (lit _))) (lit _))) ?_)
      rintro v v' hv
      obtain rfl := rval_conv.mp hv
      simp only [toElems_conv]
      cases toElems v with
      | none => exact .panic
      | some l => exact .ok (.base rfl)
  have hH : ∀ o s (st : Unit), (jsonH (ν := ν')) d o s st =
      ((jsonH (ν := ν) d o s st).1.conv (JVal.mapNum h), (jsonH (ν := ν) d o s st).2) := by
    intro o s st
    unfold jsonH
    cases origSub d s.beg s.len <;> rfl
  obtain ⟨h1, h2, _⟩ := C76_convert (JVal.mapNum h) hR (H := jsonH) hH .none
    (.step (.cell (i := 0) (j := 0) rfl rfl (.base ⟨rfl, rfl⟩)) :
      Grow ρ G G' S (.cell 0) (.cell 0)) () 0
  exact ⟨fun j o' hj => h1 _ _ _ hj, fun e o' => h2 e () o'⟩

/-- Numbers standing for their own text, then for the length of it. -/
example : JsonParse (.zero fun l => .ok l.length)
    [123, 34, 97, 34, 58, 91, 45, 49, 46, 53, 44, 116, 114, 117, 101, 93, 125]
    (.ok (.base (.json (.obj [([97], .arr [.num 4, .bool true])]))) () 17) := by
  have hn : Numeral [45, 49, 46, 53] :=
    ⟨[45], [49], [46, 53], rfl, .inr (.inr rfl), ⟨by simp, by decide⟩, .inr ⟨[53], rfl, by simp, by decide⟩⟩
  have hs : Supported id (.zero (.ok ·)) sampleJson := by
    simp only [sampleJson, Supported, SupportedMembers, SupportedElems, id, and_true, true_and]
    exact ⟨by simp, ⟨by simp, by decide⟩, by simp, hn, rfl⟩
  have := C49_round_trip (.zero (.ok ·)) id sampleJson (.inr ⟨_, rfl⟩) hs []
  exact (C76_json List.length (.zero (.ok ·)) _).1 _ _ this

end

end Neure
