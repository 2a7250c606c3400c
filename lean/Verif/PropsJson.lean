import Verif.JsonTotal
/-!
# C49: the JSON example

`JsonParse cv d r` (`Json.lean`) is `JsonParser::parse` on the bytes `d`;
`Reads cv .doc t j` (`Json.lean`) is an ordinary context-free grammar saying
that the text `t` is a document denoting `j`.  `cv` says how numbers are read and which
strings are let in; the program of `examples/json.rs` is the case `cv = .zero to_digit`,
which lets in every string.
-/

namespace Neure

set_option linter.unusedSectionVars false
set_option linter.unusedSimpArgs false

section
variable {ν : Type} (cv : JConv ν)

/-- **C49 (what is accepted).** The parser returns `v` after consuming `o'` bytes
exactly if the first `o'` bytes are a document of the grammar denoting `v`. -/
theorem C49_accepts_exactly (d : List UInt8) (v : Val (JVal ν)) (o' : Nat) :
    JsonParse cv d (.ok v () o') ↔
      ∃ t post j, d = t ++ post ∧ o' = t.length ∧ Reads cv .doc t j ∧ v = .base (.json j) := by
  constructor
  · intro h
    obtain ⟨t, post, rfl, ho, j, hj, rfl⟩ := doc_only cv d.length [] d v o' (Nat.le_refl _) h
    exact ⟨t, post, j, rfl, by rw [ho, List.nil_append, blen_bytes], hj, rfl⟩
  · rintro ⟨t, post, j, rfl, rfl, hj, rfl⟩
    have : ConAt (JR cv) (.cell 0) [] t post (.base (.json j)) := complete cv hj [] post
    unfold ConAt at this
    rwa [List.nil_append, List.nil_append, blen_bytes t] at this

/-- **C49 (total).** On every input the parser returns a value or an error: it
does not loop and does not panic. -/
theorem C49_returns (d : List UInt8) :
    (∃ v o', JsonParse cv d (.ok v () o')) ∨ (∃ e o', JsonParse cv d (.err e () o')) :=
  doc_tot cv d.length [] d (Nat.le_refl _)

/-- **C49 (errors).** It returns an error exactly if no prefix of the input is a
document. -/
theorem C49_rejects_exactly (d : List UInt8) :
    (∃ e o', JsonParse cv d (.err e () o')) ↔
      ¬ ∃ t post j, d = t ++ post ∧ Reads cv .doc t j := by
  constructor
  · rintro ⟨e, o', h⟩ ⟨t, post, j, rfl, hj⟩
    have := (C49_accepts_exactly cv _ _ _).mpr ⟨t, post, j, rfl, rfl, hj, rfl⟩
    cases Constructs.unique h this
  · intro h
    rcases C49_returns cv d with ⟨v, o', h'⟩ | h'
    · obtain ⟨t, post, j, hd, _, hj, _⟩ := (C49_accepts_exactly cv _ _ _).mp h'
      exact absurd ⟨t, post, j, hd, hj⟩ h
    · exact h'

/-- **C49 (unambiguous).** A text has at most one reading, and no document is a
proper prefix of another: what is read does not depend on what follows. -/
theorem C49_unambiguous {t t' post post' : List UInt8} {j j' : Json ν} (h : Reads cv .doc t j)
    (h' : Reads cv .doc t' j') (heq : t ++ post = t' ++ post') : t = t' ∧ j = j' := by
  have a := (C49_accepts_exactly cv _ _ _).mpr ⟨t, post, j, rfl, rfl, h, rfl⟩
  have b := (C49_accepts_exactly cv _ _ _).mpr ⟨t', post', j', rfl, rfl, h', rfl⟩
  rw [heq] at a
  have := Constructs.unique a b
  simp only [CRes.ok.injEq, Val.base.injEq, JVal.json.injEq, true_and] at this
  exact ⟨List.append_inj_left heq this.2, this.1⟩

variable (showNum : ν → List UInt8)

mutual
theorem render_elem : (j : Json ν) → Supported showNum cv j → Reads cv .elem (render showNum j) j
  | .null, _ => .null
  | .bool true, _ => .true
  | .bool false, _ => .false
  | .str s, h => .str (by simp only [Supported] at h; exact h.1) (by simp only [Supported] at h; exact h.2)
  | .num x, h => by
    simp only [Supported] at h
    simp only [render]
    exact .num h.1 h.2
  | .arr l, h => by
    simp only [Supported] at h
    simp only [render]
    exact .nested (.array (render_elems l h.1 h.2))
  | .obj l, h => by
    simp only [Supported] at h
    simp only [render]
    exact .nested (.object (render_members l h.1 h.2))
theorem render_elems : (l : List (Json ν)) → l ≠ [] → SupportedElems showNum cv l →
    Reads cv .elems (renderElems showNum l) l
  | [], h, _ => absurd rfl h
  | [j], _, h => by
    simp only [SupportedElems] at h
    have := Reads.last (w := []) (w' := []) (by simp [WsText]) (render_elem j h.1) (by simp [WsText])
    simpa [renderElems] using this
  | j :: j' :: l, _, h => by
    simp only [SupportedElems] at h
    have := Reads.cons (w := []) (w' := []) (by simp [WsText]) (render_elem j h.1) (by simp [WsText])
      (render_elems (j' :: l) (by simp) (by simp only [SupportedElems]; exact h.2))
    simpa [renderElems] using this
theorem render_members : (l : List (List UInt8 × Json ν)) → l ≠ [] → SupportedMembers showNum cv l →
    Reads cv .members (renderMembers showNum l) l
  | [], h, _ => absurd rfl h
  | [(k, j)], _, h => by
    simp only [SupportedMembers] at h
    have := Reads.lastM (w := []) (w' := []) (v := []) (v' := []) (by simp [WsText]) h.1 (by simp [WsText])
      (by simp [WsText]) (render_elem j h.2.1) (by simp [WsText])
    simpa [renderMembers] using this
  | (k, j) :: m :: l, _, h => by
    obtain ⟨k', j'⟩ := m
    simp only [SupportedMembers] at h
    have := Reads.consM (w := []) (w' := []) (v := []) (v' := []) (by simp [WsText]) h.1 (by simp [WsText])
      (by simp [WsText]) (render_elem j h.2.1) (by simp [WsText])
      (render_members ((k', j') :: l) (by simp) (by simp only [SupportedMembers]; exact h.2.2))
    simpa [renderMembers] using this
end

/-- **C49 (round trip).** Parsing the rendering of any supported array or object,
whatever follows it, gives back the tree and stops at the end of the rendering. -/
theorem C49_round_trip (j : Json ν) (hj : (∃ l, j = .arr l) ∨ (∃ l, j = .obj l))
    (h : Supported showNum cv j) (post : List UInt8) :
    JsonParse cv (render showNum j ++ post) (.ok (.base (.json j)) () (render showNum j).length) := by
  refine (C49_accepts_exactly cv _ _ _).mpr ⟨_, post, j, rfl, rfl, ?_, rfl⟩
  rcases hj with ⟨l, rfl⟩ | ⟨l, rfl⟩
  · simp only [Supported] at h
    simp only [render]
    exact .array (render_elems cv showNum l h.1 h.2)
  · simp only [Supported] at h
    simp only [render]
    exact .object (render_members cv showNum l h.1 h.2)

/-- `{"a":[-1.5,true]}`, with numbers standing for their own text. -/
def sampleJson : Json (List UInt8) :=
  .obj [([97], .arr [.num [45, 49, 46, 53], .bool true])]

example : Supported id (.zero (.ok ·)) sampleJson ∧ render id sampleJson =
    [123, 34, 97, 34, 58, 91, 45, 49, 46, 53, 44, 116, 114, 117, 101, 93, 125] := by
  have hn : Numeral [45, 49, 46, 53] :=
    ⟨[45], [49], [46, 53], rfl, .inr (.inr rfl), ⟨by simp, by decide⟩, .inr ⟨[53], rfl, by simp, by decide⟩⟩
  refine ⟨?_, rfl⟩
  simp only [sampleJson, Supported, SupportedMembers, SupportedElems, id, and_true, true_and]
  exact ⟨by simp, ⟨by simp, by decide⟩, by simp, hn, rfl⟩

/-- White space between tokens does not matter: it may be inserted around every
element. -/
theorem C49_white_space (w w' t : List UInt8) (j : Json ν) (hw : WsText w) (hw' : WsText w')
    (h : Reads cv .elem t j) (post : List UInt8) :
    JsonParse cv (91 :: (w ++ t ++ w') ++ 93 :: post)
      (.ok (.base (.json (.arr [j]))) () (w.length + t.length + w'.length + 2)) := by
  refine (C49_accepts_exactly cv _ _ _).mpr ⟨91 :: ((w ++ (t ++ w')) ++ [93]), post, .arr [j], by simp, ?_,
    .array (.last hw h hw'), rfl⟩
  simp; omega

theorem elems_ne {t : List UInt8} {l : List (Json ν)} (h : Reads cv .elems t l) : l ≠ [] := by
  cases h <;> simp

/-- `[ 1,]`: white space and a final comma are accepted. -/
example : Reads (ν := List UInt8) (.zero (.ok ·)) .doc [91, 32, 49, 44, 93] (.arr [.num [49]]) := by
  have := Reads.lastComma (cv := .zero fun l => .ok l) (w := [32]) (w' := []) (by simp [WsText, isWs])
    (Reads.num (t := [49]) ⟨[], [49], [], rfl, .inl rfl, ⟨by simp, by decide⟩, .inl rfl⟩ rfl) (by simp [WsText])
  exact .array this

/-- A document is never a scalar, and a list in it is never empty. -/
theorem C49_documents (t : List UInt8) (j : Json ν) (h : Reads cv .doc t j) :
    (∃ l, j = .arr l ∧ l ≠ []) ∨ (∃ l, j = .obj l ∧ l ≠ []) := by
  cases h with
  | array h => exact .inl ⟨_, rfl, elems_ne cv h⟩
  | object h => exact .inr ⟨_, rfl, by cases h <;> simp⟩

theorem inner_err {G : Rules UInt8 (JVal ν)} {b c : Pat UInt8 (JVal ν)} {l : UInt8} {pre rest : List UInt8}
    (h : ConErr G b (pre ++ [l]) rest) : ConErr G (.enclose (.lit [l]) b c) pre (l :: rest) := by
  obtain ⟨e, h⟩ := h
  rw [List.append_assoc] at h
  exact ⟨e, ((C08_enclose_construct _ _ _ _ _).2 _ _ _).mpr
    ⟨rfl, .inr (.inl ⟨_, _, _, lit_run pre [l] rest, h⟩)⟩⟩

theorem sep_err {G : Rules UInt8 (JVal ν)} {b : Pat UInt8 (JVal ν)} {pre rest : List UInt8}
    (h : ConErr G b pre rest) : ConErr G (.sep b (.lit [44]) true 1) pre rest := by
  obtain ⟨e, h⟩ := h
  exact ⟨_, ((C16_sep_construct _ _ _ _ _ _).2 _ _ _).mpr
    ⟨rfl, rfl, [], none, _, ⟨(), _, .nil _ _, e, h⟩, .inl ⟨rfl, by simp⟩⟩⟩

/-- **C49, limits of the example.** The empty array and the empty object of
standard JSON are rejected (a list parsed by `sep` needs one element), and so is
`[null]`: this grammar spells `null` as `empty`. -/
theorem C49_standard_json_counterexample (post : List UInt8) :
    (∃ e, JsonParse cv (91 :: 93 :: post) (.err e () 0)) ∧
    (∃ e, JsonParse cv (123 :: 125 :: post) (.err e () 0)) ∧
    (∃ e, JsonParse cv (91 :: 110 :: 117 :: 108 :: 108 :: 93 :: post) (.err e () 0)) := by
  have hobj : ∀ q, ConErr (JR cv) (jObject cv) [] (91 :: q) := fun q =>
    map_err (enclose_err (no_lit (by decide)))
  have harr : ∀ q, ConErr (JR cv) (jArray cv) [] (123 :: q) := fun q =>
    map_err (enclose_err (no_lit (by decide)))
  refine ⟨?_, ?_, ?_⟩
  · exact cell_err cv (or_err (hobj _) (map_err (inner_err (sep_err (ele_err cv _ _)))))
  · exact cell_err cv (or_err (map_err (inner_err (sep_err (member_err cv _ _)))) (harr _))
  · exact cell_err cv (or_err (hobj _) (map_err (inner_err (sep_err (ele_err_n cv _ _)))))

end

end Neure
