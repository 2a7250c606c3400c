import Verif.Eqs
import Verif.CtorDen
/-!
# One step of the fuel-free evaluators, constructor by constructor

The equations of `Eqs.lean` and `CtorDen.lean` for arbitrary callbacks; used for the
evaluators with a bound on nested calls (`Depth.lean`) and by the termination proofs.
-/

namespace Neure

set_option linter.unusedSectionVars false

variable {ι β σ : Type} [Item ι]

section Matching
variable (G : Rules ι β) (mt : List ι → Pat ι β → Nat → Option (Res Span))
  (pr : Pat ι β → Nat → Option (Res Span)) (d : List ι) (o : Nat)

theorem stepL_empty :
    stepL G mt pr d (.empty) o = some (.ok ⟨o, 0⟩ o) := by
  exact lim_const _

theorem stepL_fail :
    stepL G mt pr d (.fail) o = some (.err .fail o) := by
  exact lim_const _

theorem stepL_start :
    stepL G mt pr d (.start) o = if o = 0 then some (.ok ⟨o, 0⟩ o) else some (.err .anchorStart o) := by
  exact lim_const _

theorem stepL_anchorEnd :
    stepL G mt pr d (.anchorEnd) o = if o = blen d then some (.ok ⟨o, 0⟩ o) else some (.err .anchorEnd o) := by
  exact lim_const _

theorem stepL_consume (n : Nat) :
    stepL G mt pr d (.consume n) o = consumeParse d n o := by
  exact lim_const _

theorem stepL_consumeAll :
    stepL G mt pr d (.consumeAll) o = some (.ok ⟨o, blen d - o⟩ (o + (blen d - o))) := by
  exact lim_const _

theorem stepL_lit (l : List ι) :
    stepL G mt pr d (.lit l) o = litParse d l o := by
  exact lim_const _

theorem stepL_native (f : List ι → Nat → Res Span) :
    stepL G mt pr d (.native f) o = some (f d o) := by
  exact lim_const _

theorem stepL_once (u : Neu ι) (c : Cond ι β) :
    stepL G mt pr d (.once u c) o = onceParse mt d u c o := by
  exact lim_const _

theorem stepL_many1 (u : Neu ι) (c : Cond ι β) :
    stepL G mt pr d (.many1 u c) o = many1Parse mt d u c o := by
  exact lim_const _

theorem stepL_optU (u : Neu ι) (c : Cond ι β) :
    stepL G mt pr d (.optU u c) o = optUParse mt d u c o := by
  exact lim_const _

theorem stepL_many0 (u : Neu ι) (c : Cond ι β) :
    stepL G mt pr d (.many0 u c) o = many0Parse mt d u c o := by
  exact lim_const _

theorem stepL_between (m n : Nat) (u : Neu ι) (c : Cond ι β) :
    stepL G mt pr d (.between m n u c) o = betweenParse mt d m n u c o := by
  exact lim_const _

theorem stepL_times (r : CRange) (u : Neu ι) (c : Cond ι β) :
    stepL G mt pr d (.times r u c) o = timesParse mt d r u c o := by
  exact lim_const _

theorem stepL_thenU (u v : Neu ι) (c : Cond ι β) :
    stepL G mt pr d (.thenU u v c) o = thenUParse mt d u v c o := by
  exact lim_const _

theorem stepL_assert (q : Pat ι β) (value : Bool) :
    stepL G mt pr d (.assert q value) o = caseR (mt d q o)
      (fun _ _ => if value then some (.ok ⟨o, 0⟩ o) else some (.err .assertFalse o))
      (fun _ _ => if value then some (.err .assertTrue o) else some (.ok ⟨o, 0⟩ o)) := by
  exact lim_const _

theorem stepL_thn (a b : Pat ι β) :
    stepL G mt pr d (.thn a b) o = seq2 (mt d) a b o := by
  exact lim_const _

theorem stepL_pre (a b : Pat ι β) :
    stepL G mt pr d (.pre a b) o = seq2 (mt d) a b o := by
  exact lim_const _

theorem stepL_suf (a b : Pat ι β) :
    stepL G mt pr d (.suf a b) o = seq2 (mt d) a b o := by
  exact lim_const _

theorem stepL_ifThen (a t b : Pat ι β) :
    stepL G mt pr d (.ifThen a t b) o = caseR (mt d a o)
      (fun s1 o1 => caseR (mt d t o1)
        (fun s2 o2 => addK s1 s2 fun s12 => caseR (mt d b o2)
          (fun s3 o3 => addK s12 s3 fun s => some (.ok s o3))
          (fun e _ => some (.err e o)))
        (fun _ _ => some (.ok s1 o1)))
      (fun e _ => some (.err e o)) := by
  exact lim_const _

theorem stepL_enclose (a b c : Pat ι β) :
    stepL G mt pr d (.enclose a b c) o = caseR (mt d a o)
      (fun s1 o1 => caseR (mt d b o1)
        (fun s2 o2 => addK s1 s2 fun s12 => caseR (mt d c o2)
          (fun s3 o3 => addK s12 s3 fun s => some (.ok s o3))
          (fun e _ => some (.err e o)))
        (fun e _ => some (.err e o)))
      (fun e _ => some (.err e o)) := by
  exact lim_const _

theorem stepL_sepOnce (a b c : Pat ι β) :
    stepL G mt pr d (.sepOnce a b c) o = caseR (mt d a o)
      (fun s1 o1 => addK ⟨o, 0⟩ s1 fun t1 => caseR (mt d b o1)
        (fun s2 o2 => addK t1 s2 fun t2 => caseR (mt d c o2)
          (fun s3 o3 => addK t2 s3 fun s => some (.ok s o3))
          (fun e _ => some (.err e o)))
        (fun e _ => some (.err e o)))
      (fun e _ => some (.err e o)) := by
  exact lim_const _

theorem stepL_or (a b : Pat ι β) :
    stepL G mt pr d (.or a b) o = caseR (mt d a o) (fun s o1 => some (.ok s o1))
      (fun _ _ => caseR (mt d b o) (fun s o2 => some (.ok s o2)) (fun e _ => some (.err e o))) := by
  exact lim_const _

theorem stepL_longest (a b : Pat ι β) :
    stepL G mt pr d (.longest a b) o = caseR (mt d a o)
      (fun l _ => caseR (mt d b o)
        (fun r _ => if l.len ≥ r.len then some (.ok l (o + l.len)) else some (.ok r (o + r.len)))
        (fun _ _ => some (.ok l (o + l.len))))
      (fun _ _ => caseR (mt d b o)
        (fun r _ => some (.ok r (o + r.len)))
        (fun e _ => some (.err e o))) := by
  exact lim_const _

theorem stepL_opt (q : Pat ι β) :
    stepL G mt pr d (.opt q) o = caseR (mt d q o) (fun s o1 => some (.ok s o1)) (fun _ _ => some (.ok ⟨o, 0⟩ o)) := by
  exact lim_const _

theorem stepL_choice (e : Error) (items : List (Pat ι β × Option (Val β))) :
    stepL G mt pr d (.choice e items) o = choiceLoop (mt d) e o items o := by
  exact lim_const _

theorem stepL_ltm (e : Error) (items : List (Pat ι β × Option (Val β))) :
    stepL G mt pr d (.ltm e items) o = ltmLoop (mt d) e o items none o := by
  exact lim_const _

theorem stepL_rep (q : Pat ι β) (r : CRange) :
    stepL G mt pr d (.rep q r) o = repL (mt d) q r.more (finish r.contains .repeat_ o) 0 ⟨o, 0⟩ o := by
  rfl

theorem stepL_rep2 (q : Pat ι β) (m n : Nat) :
    stepL G mt pr d (.rep2 q m n) o = repL (mt d) q (fun c => decide (c ≤ n))
      (finish (fun c => decide (m ≤ c) && decide (c ≤ n)) .repeat2 o) 0 ⟨o, 0⟩ o := by
  rfl

theorem stepL_collect (q : Pat ι β) (min : Nat) :
    stepL G mt pr d (.collect q min) o = repL (mt d) q (fun _ => true)
      (finish (fun c => decide (c ≥ min)) .collect o) 0 ⟨o, 0⟩ o := by
  rfl

theorem stepL_sep (q s : Pat ι β) (skip : Bool) (min : Nat) :
    stepL G mt pr d (.sep q s skip min) o = sepL (mt d) q s skip (fun _ => true)
      (finish (fun c => decide (c ≥ min)) .separate o) 0 ⟨o, 0⟩ o := by
  rfl

theorem stepL_sep2 (q s : Pat ι β) (skip : Bool) (m n : Nat) :
    stepL G mt pr d (.sep2 q s skip m n) o = sepL (mt d) q s skip (fun c => decide (c ≤ n))
      (finish (fun c => decide (c ≥ m)) .separate2 o) 0 ⟨o, 0⟩ o := by
  rfl

theorem stepL_sepCollect (q s : Pat ι β) (skip : Bool) (min : Nat) :
    stepL G mt pr d (.sepCollect q s skip min) o = sepL (mt d) q s skip (fun _ => true)
      (finish (fun c => decide (c ≥ min)) .sepCollect o) 0 ⟨o, 0⟩ o := by
  rfl

theorem stepL_branch (t : List ι → Nat → Out Bool) (a b : Pat ι β) :
    stepL G mt pr d (.branch t a b) o = caseO (some (t d o))
      (fun t => caseR (mt d (if t then a else b) o) (fun s o1 => some (.ok s o1))
        (fun e _ => some (.err e o)))
      (fun e => some (.err e o)) := by
  exact lim_const _

theorem stepL_map (q : Pat ι β) (f : Val β → Out (Val β)) :
    stepL G mt pr d (.map q f) o = mt d q o := by
  exact lim_const _

theorem stepL_pat (q : Pat ι β) :
    stepL G mt pr d (.pat q) o = mt d q o := by
  exact lim_const _

theorem stepL_build (q : Pat ι β) (f : List ι → Nat → Span → Res (Pat ι β)) :
    stepL G mt pr d (.build q f) o = caseR (mt d q o)
      (fun s o1 => caseR (some (f d o1 s))
        (fun p' o2 => caseR (mt d p' o2) (fun s' o3 => some (.ok s' o3))
          (fun e _ => some (.err e o)))
        (fun e o2 => some (.err e o2)))
      (fun e _ => some (.err e o)) := by
  exact lim_const _

theorem stepL_dthen (q : Pat ι β) (f : List ι → Nat → Val β → Res (Pat ι β)) :
    stepL G mt pr d (.dthen q f) o = some .panic := by
  exact lim_const _

theorem stepL_cell (i : Nat) :
    stepL G mt pr d (.cell i) o = match G i with
    | none => some (.err .option o)
    | some q => pr q o := by
  exact lim_const _

end Matching

section Constructing
variable (G : Rules ι β) (H : Handler ι β σ) (mt : Pat ι β → Nat → Option (Res Span))
  (leaf : Option (Res Span)) (cn : Pat ι β → σ → Nat → Option (CRes σ (Val β)))
  (d : List ι) (st : σ) (o : Nat)

theorem conStepL_leaf {p : Pat ι β} (hp : Leaf p) :
    conStepL G H mt leaf cn d p st o = invokeK H d st leaf := by
  cases p <;> first | exact lim_const _ | exact hp.elim

theorem conStepL_pat (q : Pat ι β) :
    conStepL G H mt leaf cn d (.pat q) st o = invokeK H d st (mt q o) := by
  exact lim_const _

theorem conStepL_thn (a b : Pat ι β) :
    conStepL G H mt leaf cn d (.thn a b) st o = caseC (cn a st o)
      (fun v1 st1 o1 => caseC (cn b st1 o1)
        (fun v2 st2 o2 => some (.ok (.pair v1 v2) st2 o2))
        (fun e st2 _ => some (.err e st2 o)))
      (fun e st1 _ => some (.err e st1 o)) := by
  exact lim_const _

theorem conStepL_ifThen (a t b : Pat ι β) :
    conStepL G H mt leaf cn d (.ifThen a t b) st o = caseC (cn a st o)
      (fun v1 st1 o1 => caseM (mt t o1)
        (fun _ o2 => caseC (cn b st1 o2)
          (fun v2 st2 o3 => some (.ok (.pair v1 (.some v2)) st2 o3))
          (fun e st2 _ => some (.err e st2 o)))
        (fun _ _ => some (.ok (.pair v1 .none) st1 o1)))
      (fun e st1 _ => some (.err e st1 o)) := by
  exact lim_const _

theorem conStepL_pre (a b : Pat ι β) :
    conStepL G H mt leaf cn d (.pre a b) st o = caseM (mt a o)
      (fun _ o1 => caseC (cn b st o1)
        (fun v st1 o2 => some (.ok v st1 o2))
        (fun e st1 _ => some (.err e st1 o)))
      (fun e _ => some (.err e st o)) := by
  exact lim_const _

theorem conStepL_suf (a b : Pat ι β) :
    conStepL G H mt leaf cn d (.suf a b) st o = caseC (cn a st o)
      (fun v st1 o1 => caseM (mt b o1)
        (fun _ o2 => some (.ok v st1 o2))
        (fun e _ => some (.err e st1 o)))
      (fun e st1 _ => some (.err e st1 o)) := by
  exact lim_const _

theorem conStepL_enclose (a b c : Pat ι β) :
    conStepL G H mt leaf cn d (.enclose a b c) st o = caseM (mt a o)
      (fun _ o1 => caseC (cn b st o1)
        (fun v st1 o2 => caseM (mt c o2)
          (fun _ o3 => some (.ok v st1 o3))
          (fun e _ => some (.err e st1 o)))
        (fun e st1 _ => some (.err e st1 o)))
      (fun e _ => some (.err e st o)) := by
  exact lim_const _

theorem conStepL_sepOnce (a b c : Pat ι β) :
    conStepL G H mt leaf cn d (.sepOnce a b c) st o = caseC (cn a st o)
      (fun v1 st1 o1 => caseM (mt b o1)
        (fun _ o2 => caseC (cn c st1 o2)
          (fun v2 st2 o3 => some (.ok (.pair v1 v2) st2 o3))
          (fun e st2 _ => some (.err e st2 o)))
        (fun e _ => some (.err e st1 o)))
      (fun e st1 _ => some (.err e st1 o)) := by
  exact lim_const _

theorem conStepL_or (a b : Pat ι β) :
    conStepL G H mt leaf cn d (.or a b) st o = caseC (cn a st o)
      (fun v st1 o1 => some (.ok v st1 o1))
      (fun _ st1 _ => caseC (cn b st1 o) (fun v st2 o2 => some (.ok v st2 o2))
        (fun e st2 _ => some (.err e st2 o))) := by
  exact lim_const _

theorem conStepL_longest (a b : Pat ι β) :
    conStepL G H mt leaf cn d (.longest a b) st o = caseC (cn a st o)
      (fun l st1 offL => caseC (cn b st1 o)
        (fun r st2 offR => if offL ≥ offR then some (.ok l st2 offL) else some (.ok r st2 offR))
        (fun _ st2 _ => some (.ok l st2 offL)))
      (fun _ st1 _ => caseC (cn b st1 o)
        (fun r st2 offR => some (.ok r st2 offR))
        (fun e st2 _ => some (.err e st2 o))) := by
  exact lim_const _

theorem conStepL_opt (q : Pat ι β) :
    conStepL G H mt leaf cn d (.opt q) st o = caseC (cn q st o)
      (fun v st1 o1 => some (.ok (.some v) st1 o1)) (fun _ st1 _ => some (.ok .none st1 o)) := by
  exact lim_const _

theorem conStepL_choice (e : Error) (items : List (Pat ι β × Option (Val β))) :
    conStepL G H mt leaf cn d (.choice e items) st o = conChoice cn e o items st o := by
  exact lim_const _

theorem conStepL_ltm (e : Error) (items : List (Pat ι β × Option (Val β))) :
    conStepL G H mt leaf cn d (.ltm e items) st o = conLtm cn e o items none o st o := by
  exact lim_const _

theorem conStepL_rep (q : Pat ι β) (r : CRange) :
    conStepL G H mt leaf cn d (.rep q r) st o = conRepL cn q r.more (fun _ => true)
      (conFinish r.contains .repeat_ o Val.list) 0 [] st o := by
  rfl

theorem conStepL_rep2 (q : Pat ι β) (m n : Nat) :
    conStepL G H mt leaf cn d (.rep2 q m n) st o = conRepL cn q (fun c => decide (c ≤ n))
      (fun c => decide (c < n)) (conFinish (fun c => decide (m ≤ c) && decide (c ≤ n)) .repeat2 o
        (padded n)) 0 [] st o := by
  rfl

theorem conStepL_collect (q : Pat ι β) (min : Nat) :
    conStepL G H mt leaf cn d (.collect q min) st o = conRepL cn q (fun _ => true)
      (fun _ => true) (conFinish (fun c => decide (c ≥ min)) .collect o Val.list) 0 [] st o := by
  rfl

theorem conStepL_sep (q s : Pat ι β) (skip : Bool) (min : Nat) :
    conStepL G H mt leaf cn d (.sep q s skip min) st o = conSepL cn (mt s) q skip
      (fun _ => true) (fun _ => true)
      (conFinish (fun c => decide (c ≥ min)) .separate o Val.list) 0 [] st o := by
  rfl

theorem conStepL_sep2 (q s : Pat ι β) (skip : Bool) (m n : Nat) :
    conStepL G H mt leaf cn d (.sep2 q s skip m n) st o = conSepL cn (mt s) q skip
      (fun c => decide (c ≤ n)) (fun c => decide (c < n))
      (conFinish (fun c => decide (c ≥ m)) .separate2 o (padded n)) 0 [] st o := by
  rfl

theorem conStepL_sepCollect (q s : Pat ι β) (skip : Bool) (min : Nat) :
    conStepL G H mt leaf cn d (.sepCollect q s skip min) st o =
      conSepCL cn (mt s) q skip
        (conFinish (fun c => decide (c ≥ min)) .sepCollect o Val.list) false 0 [] st o := by
  rfl

theorem conStepL_branch (t : List ι → Nat → Out Bool) (a b : Pat ι β) :
    conStepL G H mt leaf cn d (.branch t a b) st o = caseT (t d o)
      (fun t => caseC (cn (if t then a else b) st o)
        (fun v st1 o1 => some (.ok v st1 o1)) (fun e st1 _ => some (.err e st1 o)))
      (fun e => some (.err e st o)) := by
  exact lim_const _

theorem conStepL_map (q : Pat ι β) (f : Val β → Out (Val β)) :
    conStepL G H mt leaf cn d (.map q f) st o = caseC (cn q st o)
      (fun v st1 o1 => caseT (f v) (fun w => some (.ok w st1 o1)) (fun e => some (.err e st1 o1)))
      (fun e st1 o1 => some (.err e st1 o1)) := by
  exact lim_const _

theorem conStepL_dthen (q : Pat ι β) (f : List ι → Nat → Val β → Res (Pat ι β)) :
    conStepL G H mt leaf cn d (.dthen q f) st o = caseC (cn q st o)
      (fun v1 st1 o1 => caseM (some (f d o1 v1))
        (fun p' o2 => caseC (cn p' st1 o2)
          (fun v2 st2 o3 => some (.ok (.pair v1 v2) st2 o3))
          (fun e st2 _ => some (.err e st2 o)))
        (fun e o2 => some (.err e st1 o2)))
      (fun e st1 _ => some (.err e st1 o)) := by
  exact lim_const _

theorem conStepL_cell (i : Nat) :
    conStepL G H mt leaf cn d (.cell i) st o = match G i with
      | none => some (.err .option st o)
      | some q => cn q st o := by
  exact lim_const _

end Constructing

end Neure
