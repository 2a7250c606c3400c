import Verif.Told
import Verif.CtorText
import Verif.CtorEats
/-!
# C89: one induction over `construct` for everything that accumulates along a value
-/

namespace Neure

set_option linter.unusedSectionVars false
set_option linter.unusedSimpArgs false

variable {ι β σ : Type} [Item ι] {G : Rules ι β} {H : Handler ι β σ} {pol : Option (Pat ι β)}
  {d : List ι} {p : Pat ι β} {far : Prop} {L : σ → Nat → List β → σ → Nat → Prop}

/-- `L st o l st' o'` ("from `(st, o)` to `(st', o')` with the answers `l`") composes. -/
structure Track (L : σ → Nat → List β → σ → Nat → Prop) (far : Prop) : Prop where
  nil : ∀ {st o}, L st o [] st o
  app : ∀ {st o l st1 o1 l' st2 o2}, L st o l st1 o1 → L st1 o1 l' st2 o2 → L st o (l ++ l') st2 o2
  sub : ∀ {st o l l' st' o'}, L st o l st' o' → l'.Sublist l → L st o l' st' o'
  side : ∀ {st o l st1 o1 l' st2 o2}, L st o l st1 o1 → L st1 o l' st2 o2 → L st o l st2 o1
  far : far → ∀ {st o l st1 o1 l' st2 o2}, L st o l st1 o1 → L st1 o l' st2 o2 → L st o l st2 o2

theorem Track.back (T : Track L far) {st o l st' o'} (h : L st o l st' o') : L st o [] st' o :=
  T.side T.nil h

theorem Track.drop (T : Track L far) {st o l st' o'} (h : L st o l st' o') : L st o [] st' o' :=
  T.sub h (List.nil_sublist _)

theorem Track.step (T : Track L far) {st o l st1 o1 st2 o2} (h : L st o l st1 o1) (h2 : L st1 o1 [] st2 o2) :
    L st o l st2 o2 := by
  have := T.app h h2
  rwa [List.append_nil] at this

/-- The local condition: matched parts and handler calls are tracked. -/
def Tells (G : Rules ι β) (H : Handler ι β σ) (pol : Option (Pat ι β)) (d : List ι)
    (L : σ → Nat → List β → σ → Nat → Prop) (far : Prop) (p : Pat ι β) : Prop :=
  (∀ m, MatchPart m p → ∀ st o,
    (∀ s o', Runs G pol d m o (.ok s o') → L st o [] st o' ∧
      (∀ b st', H d o' s st = (.ok b, st') → L st o [b] st' o') ∧
      (∀ e st', H d o' s st = (.err e, st') → L st o [] st' o')) ∧
    (∀ e o', Runs G pol d m o (.err e o') → L st o [] st o')) ∧
  (∀ q f, p = .dthen q f → ∀ st o v,
    (∀ p' o', f d o v = .ok p' o' → L st o [] st o') ∧ (∀ e o', f d o v = .err e o' → L st o [] st o')) ∧
  Faithful far p

/-- The post-condition. -/
def TrackPost (L : σ → Nat → List β → σ → Nat → Prop) (st : σ) (o : Nat) : CRes σ (Val β) → Prop
  | .ok v st' o' => L st o v.leaves st' o'
  | .err _ st' o' => L st o [] st' o'
  | .panic => True

theorem track_finish (T : Track L far) {ok : Nat → Bool} {e : Error} {beg : Nat} {st0 : σ}
    {w : List (Val β) → Val β} (hw : ∀ vs, (w vs).leaves = vs.flatMap Val.leaves)
    (cnt : Nat) (vals : List (Val β)) (st : σ) (o : Nat) (h : L st0 beg (vals.flatMap Val.leaves) st o) :
    Sat (conFinish ok e beg w cnt vals st o) (TrackPost L st0 beg) := by
  unfold conFinish; split
  · refine Sat.some ?_
    simp only [TrackPost, hw]; exact h
  · exact Sat.some (T.back h)

theorem track_snoc (T : Track L far) {st0 st st1 : σ} {beg o o1 : Nat} {vals : List (Val β)} {v : Val β}
    (h : L st0 beg (vals.flatMap Val.leaves) st o) (h1 : L st o v.leaves st1 o1) :
    L st0 beg ((vals ++ [v]).flatMap Val.leaves) st1 o1 := by
  have := T.app h h1
  simpa using this

theorem track_rep (T : Track L far) {cn : Pat ι β → σ → Nat → Option (CRes σ (Val β))}
    {p : Pat ι β} {more room : Nat → Bool} {ok : Nat → Bool} {e : Error}
    {w : List (Val β) → Val β} (hw : ∀ vs, (w vs).leaves = vs.flatMap Val.leaves)
    (hp : ∀ st o, Sat (cn p st o) (TrackPost L st o)) (fuel : Nat) (st : σ) (o : Nat) :
    Sat (conRep cn p more room (conFinish ok e o w) fuel 0 [] st o) (TrackPost L st o) := by
  refine sat_conRep (fun vals st1 o1 => L st o (vals.flatMap Val.leaves) st1 o1)
    (P := fun st o => TrackPost L st o) (fun vals st o _ => hp st o) trivial
    (fun vals st o v st1 o1 h h1 => track_snoc T h h1) (track_finish T hw)
    (fun cnt vals st o e st1 o1 h h1 => track_finish T hw _ _ _ _ (T.step h h1)) _ _ _ _ _ T.nil

theorem track_sep (T : Track L far) {cn : Pat ι β → σ → Nat → Option (CRes σ (Val β))}
    {ms : Nat → Option (Res Span)} {p : Pat ι β} {skip : Bool} {more room : Nat → Bool} {ok : Nat → Bool}
    {e : Error} {beg : Nat} {st0 : σ}
    {w : List (Val β) → Val β} (hw : ∀ vs, (w vs).leaves = vs.flatMap Val.leaves)
    (hp : ∀ st o, Sat (cn p st o) (TrackPost L st o))
    (hs : ∀ st o, Sat (ms o) fun r => match r with | .ok _ o' => L st o [] st o' | .err _ o' => L st o [] st o' | .panic => True)
    (fuel cnt : Nat) (vals : List (Val β)) (st : σ) (o : Nat) (h : L st0 beg (vals.flatMap Val.leaves) st o) :
    Sat (conSep cn ms p skip more room (conFinish ok e beg w) fuel cnt vals st o) (TrackPost L st0 beg) := by
  induction fuel generalizing cnt vals st o with
  | zero => exact Sat.none
  | succ n ih =>
    simp only [conSep]
    split
    · refine sat_caseC (hp st o) trivial (fun v st1 o1 h1 => ?_)
        (fun e st1 o1 h1 => track_finish T hw _ _ _ _ (T.step h h1))
      refine sat_caseM (hs st1 o1) trivial (fun _ o2 h2 => ?_) (fun _ o2 h2 => ?_)
      · split
        · exact ih _ _ _ _ (T.step (track_snoc T h h1) h2)
        · exact Sat.some trivial
      · split
        · split
          · exact track_finish T hw _ _ _ _ (T.step (track_snoc T h h1) h2)
          · exact Sat.some trivial
        · exact track_finish T hw _ _ _ _ (T.step (T.step h (T.drop h1)) h2)
    · exact track_finish T hw _ _ _ _ h

theorem track_sepCollect (T : Track L far) {cn : Pat ι β → σ → Nat → Option (CRes σ (Val β))}
    {ms : Nat → Option (Res Span)} {p : Pat ι β} {skip : Bool} {ok : Nat → Bool}
    {e : Error} {beg : Nat} {st0 : σ}
    {w : List (Val β) → Val β} (hw : ∀ vs, (w vs).leaves = vs.flatMap Val.leaves)
    (hp : ∀ st o, Sat (cn p st o) (TrackPost L st o))
    (hs : ∀ st o, Sat (ms o) fun r => match r with | .ok _ o' => L st o [] st o' | .err _ o' => L st o [] st o' | .panic => True)
    (fuel : Nat) (ended : Bool) (cnt : Nat) (vals : List (Val β)) (st : σ) (o : Nat)
    (h : L st0 beg (vals.flatMap Val.leaves) st o) :
    Sat (conSepCollect cn ms p skip (conFinish ok e beg w) fuel ended cnt vals st o) (TrackPost L st0 beg) := by
  induction fuel generalizing ended cnt vals st o with
  | zero => exact Sat.none
  | succ n ih =>
    simp only [conSepCollect]
    refine sat_caseC (hp st o) trivial (fun v st1 o1 h1 => ?_)
      (fun e st1 o1 h1 => track_finish T hw _ _ _ _ (T.step h h1))
    refine sat_caseM (hs st1 o1) trivial (fun _ o2 h2 => ?_) (fun _ o2 h2 => ?_)
    · split
      · exact track_finish T hw _ _ _ _ (T.step (T.step h (T.drop h1)) h2)
      · exact ih _ _ _ _ _ (T.step (track_snoc T h h1) h2)
    · split
      · exact track_finish T hw _ _ _ _ (T.step (T.step h (T.drop h1)) h2)
      · split
        · exact ih _ _ _ _ _ (T.step (track_snoc T h h1) h2)
        · exact track_finish T hw _ _ _ _ (T.step (T.step h (T.drop h1)) h2)

theorem leaves_tagged {k : Option (Val β)} (hk : ∀ k', k = some k' → k'.leaves = []) (v : Val β) :
    (tagged k v).leaves = v.leaves := by
  cases k with
  | none => rfl
  | some k => simp [tagged, Val.leaves, hk k rfl]

theorem track_ltm (T : Track L far) (hf : far) {cn : Pat ι β → σ → Nat → Option (CRes σ (Val β))}
    {e : Error} {beg : Nat} {st0 : σ} (items : List (Pat ι β × Option (Val β)))
    (hp : ∀ it ∈ items, ∀ st o, Sat (cn it.1 st o) (TrackPost L st o))
    (ht : ∀ it ∈ items, ∀ k, it.2 = some k → k.leaves = [])
    (best : Option (Val β)) (stop : Nat) (st : σ) (o : Nat)
    (h : L st0 beg ((best.map Val.leaves).getD []) st o) :
    Sat (conLtm cn e beg items best stop st o) (TrackPost L st0 beg) := by
  induction items generalizing best stop st o with
  | nil =>
    cases best with
    | none => exact Sat.some h
    | some v => exact Sat.some h
  | cons it items ih =>
    have ih := ih (fun it hit => hp it (.tail _ hit)) (fun it hit => ht it (.tail _ hit))
    simp only [conLtm]
    refine sat_caseC (hp it (.head _) st beg) trivial (fun v st1 o1 h1 => ?_) (fun e st1 o1 h1 => ?_)
    · split
      · refine ih _ _ _ _ ?_
        have : L st0 beg (v.leaves) st1 o1 := by
          have := T.app (T.back h) h1
          simpa using this
        simpa [leaves_tagged (ht it (.head _))] using this
      · exact ih _ _ _ _ (T.far hf h h1)
    · exact ih _ _ _ _ (T.far hf h h1)

theorem track_inv (T : Track L far) (n : Nat) (p : Pat ι β) (hp : CAll G (Tells G H pol d L far) p)
    (st : σ) (o : Nat) : Sat (con G H n pol d p st o) (TrackPost L st o) := by
  induction n generalizing p st o with
  | zero => exact Sat.none
  | succ n ih =>
    obtain ⟨hm, hdy, hk⟩ := hp.self
    have ch : ∀ q, CChild G q p → ∀ st o, Sat (con G H n pol d q st o) (TrackPost L st o) :=
      fun q hq st o => ih q (hp.child hq) st o
    have key : ∀ m k, MatchPart m p → Sat (invokeK H d st (tryMat G k pol d m o)) (TrackPost L st o) := by
      intro m k hmp
      refine sat_caseM (P := fun r => tryMat G k pol d m o = some r) (fun r hr => hr) trivial (fun s o' h => ?_)
        (fun e o' h => Sat.some ((hm m hmp st o).2 e o' ⟨k, h⟩))
      have := (hm m hmp st o).1 s o' ⟨k, h⟩
      rcases hH : H d o' s st with ⟨_ | _ | _, st'⟩
      · exact Sat.some (this.2.1 _ _ hH)
      · exact Sat.some (this.2.2 _ _ hH)
      · exact Sat.some trivial
    have mm : ∀ m, MatchPart m p → ∀ st o, Sat (tryMat G n pol d m o) fun r => match r with
        | .ok _ o' => L st o [] st o' | .err _ o' => L st o [] st o' | .panic => True := by
      intro m hmp st o r hr
      rcases r with ⟨s, o'⟩ | ⟨e, o'⟩ | _
      · exact ((hm m hmp st o).1 s o' ⟨n, hr⟩).1
      · exact (hm m hmp st o).2 e o' ⟨n, hr⟩
      · trivial
    cases p
    case thn a b =>
      refine sat_caseC (ch a (.inl rfl) _ _) trivial (fun v1 l1 o1 h1 => ?_)
        (fun _ _ _ h => Sat.some (T.back h))
      exact sat_caseC (ch b (.inr rfl) _ _) trivial (fun v2 l2 o2 h2 => Sat.some (T.app h1 h2))
        (fun _ _ _ h2 => Sat.some (T.back (T.step h1 h2)))
    case ifThen a t b =>
      refine sat_caseC (ch a (.inl rfl) _ _) trivial (fun v1 l1 o1 h1 => ?_)
        (fun _ _ _ h => Sat.some (T.back h))
      refine sat_caseM (mm t rfl l1 o1) trivial (fun _ o2 h2 => ?_) (fun _ _ _ => Sat.some ?_)
      · refine sat_caseC (ch b (.inr rfl) _ _) trivial (fun v2 l2 o2 h3 => Sat.some ?_)
          (fun _ _ _ h3 => Sat.some (T.back (T.step (T.step h1 h2) h3)))
        exact T.app (T.step h1 h2) h3
      · simp only [TrackPost, Val.leaves, List.append_nil]; exact h1
    case pre a b =>
      exact sat_caseM (mm a rfl st o) trivial (fun _ _ h1 => sat_caseC (ch b rfl _ _) trivial
        (fun _ _ _ h => Sat.some (T.app h1 h)) (fun _ _ _ h => Sat.some (T.back (T.step h1 h))))
        (fun _ _ h => Sat.some (T.back h))
    case suf a b =>
      exact sat_caseC (ch a rfl _ _) trivial (fun _ _ _ h => sat_caseM (mm b rfl _ _) trivial
        (fun _ _ h2 => Sat.some (T.step h h2)) (fun _ _ _ => Sat.some (T.back h)))
        (fun _ _ _ h => Sat.some (T.back h))
    case enclose a b c =>
      exact sat_caseM (mm a (.inl rfl) st o) trivial (fun _ _ h1 => sat_caseC (ch b rfl _ _) trivial
        (fun _ _ _ h => sat_caseM (mm c (.inr rfl) _ _) trivial (fun _ _ h3 => Sat.some (T.step (T.app h1 h) h3))
          (fun _ _ _ => Sat.some (T.back (T.app h1 h)))) (fun _ _ _ h => Sat.some (T.back (T.step h1 h))))
        (fun _ _ h => Sat.some (T.back h))
    case sepOnce a b c =>
      refine sat_caseC (ch a (.inl rfl) _ _) trivial (fun v1 l1 o1 h1 => ?_)
        (fun _ _ _ h => Sat.some (T.back h))
      refine sat_caseM (mm b rfl l1 o1) trivial (fun _ _ h2 => ?_) (fun _ _ _ => Sat.some (T.back h1))
      exact sat_caseC (ch c (.inr rfl) _ _) trivial (fun v2 l2 o2 h3 => Sat.some (T.app (T.step h1 h2) h3))
        (fun _ _ _ h3 => Sat.some (T.back (T.step (T.step h1 h2) h3)))
    case or a b =>
      refine sat_caseC (ch a (.inl rfl) _ _) trivial (fun _ _ _ h => Sat.some h) (fun e l1 o1 h => ?_)
      exact sat_caseC (ch b (.inr rfl) _ _) trivial (fun _ _ _ h2 => Sat.some (T.app (T.back h) h2))
        (fun _ _ _ h2 => Sat.some (T.back (T.app (T.back h) h2)))
    case longest a b =>
      refine sat_caseC (ch a (.inl rfl) _ _) trivial (fun v1 l1 o1 h => ?_) (fun e l1 o1 h => ?_)
      · refine sat_caseC (ch b (.inr rfl) _ _) trivial (fun v2 l2 o2 h2 => ?_)
          (fun _ _ _ h2 => Sat.some (T.side h h2))
        split
        · exact Sat.some (T.side h h2)
        · exact Sat.some (T.app (T.back h) h2)
      · exact sat_caseC (ch b (.inr rfl) _ _) trivial (fun v2 l2 o2 h2 => Sat.some (T.app (T.back h) h2))
          (fun _ _ _ h2 => Sat.some (T.back (T.app (T.back h) h2)))
    case opt q =>
      exact sat_caseC (ch q rfl _ _) trivial (fun _ _ _ h => Sat.some h)
        (fun e l1 o1 h => Sat.some (T.back h))
    case choice e items =>
      refine sat_conChoice (I := fun s => L st o [] s o) (P := fun s r => TrackPost L s o r) items
        (fun it hit s _ => ch it.1 ⟨it, hit, rfl⟩ s o) trivial
        (fun it hit s v _ _ h h1 => ?_) (fun s _ st1 _ h h1 => T.back (T.app h h1)) (fun _ h => h) st T.nil
      simp only [TrackPost, leaves_tagged (hk it hit)]
      exact T.app h h1
    case ltm e items =>
      exact track_ltm T hk.1 items (fun it hit => ch it.1 ⟨it, hit, rfl⟩) hk.2 _ _ _ _ T.nil
    case rep q r => exact track_rep T leaves_list (ch q rfl) _ _ _
    case rep2 q a b => exact track_rep T (leaves_padded _) (ch q rfl) _ _ _
    case collect q a => exact track_rep T leaves_list (ch q rfl) _ _ _
    case sep q s k a => exact track_sep T leaves_list (ch q rfl) (mm s rfl) _ _ _ _ _ T.nil
    case sep2 q s k a b => exact track_sep T (leaves_padded _) (ch q rfl) (mm s rfl) _ _ _ _ _ T.nil
    case sepCollect q s k a => exact track_sepCollect T leaves_list (ch q rfl) (mm s rfl) _ _ _ _ _ _ T.nil
    case branch t a b =>
      refine sat_caseT trivial (fun t _ => sat_caseC (ch _ ?_ _ o) trivial
        (fun _ _ _ h => Sat.some h) (fun _ _ _ h => Sat.some (T.back h))) (fun _ _ => Sat.some T.nil)
      cases t
      · exact .inr rfl
      · exact .inl rfl
    case map q f =>
      refine sat_caseC (ch q rfl _ _) trivial (fun v1 l1 o1 h1 => ?_) (fun _ _ _ h => Sat.some h)
      exact sat_caseT trivial (fun w hw => Sat.some (T.sub h1 (hk _ _ hw))) (fun _ _ => Sat.some (T.drop h1))
    case dthen q f =>
      refine sat_caseC (ch q (.inl rfl) _ _) trivial (fun v1 l1 o1 h1 => ?_)
        (fun _ _ _ h => Sat.some (T.back h))
      refine sat_caseM (P := fun r => f d o1 v1 = r) (Sat.some rfl) trivial
        (fun p' o2 hf => ?_) (fun e o2 hf => Sat.some (T.step (T.drop h1) ((hdy q f rfl l1 o1 v1).2 e o2 hf)))
      have h2 := (hdy q f rfl l1 o1 v1).1 p' o2 hf
      exact sat_caseC (ch p' (.inr ⟨_, _, _, _, hf⟩) _ _) trivial
        (fun v2 l2 o2 h3 => Sat.some (T.app (T.step h1 h2) h3))
        (fun _ _ _ h3 => Sat.some (T.back (T.step (T.step h1 h2) h3)))
    case cell i =>
      simp only [con, conStep]
      cases hg : G i with
      | none => exact Sat.some T.nil
      | some q => exact ch q hg _ o
    case pat q => exact key q n rfl
    all_goals exact key _ (n + 1) rfl

end Neure
