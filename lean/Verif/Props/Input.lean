import Verif.Model.Input
import Verif.Lemmas.Pieces

/-! The single-line input: C76 (editing) and C77 (what is displayed). -/

namespace Textual.Input

open Textual.Markup

/-- What is assumed of the grapheme segmentation: it cuts the text into non-empty pieces. -/
structure SegOk (seg : List Char → List (List Char)) : Prop where
  join : ∀ s, (seg s).flatten = s
  nonempty : ∀ s, ∀ g ∈ seg s, g ≠ []

/-- Characters that are graphemes of their own next to each other (ASCII without control characters, for
example). -/
def Plain (seg : List Char → List (List Char)) (P : Char → Prop) : Prop :=
  ∀ s, (∀ c ∈ s, P c) → seg s = s.map ([·])

/-! ### Positions -/

theorem split_at {seg : List Char → List (List Char)} (h : SegOk seg) (s : List Char) (n : Nat) (hn : n ≤ (seg s).length) :
    s.take (byteIndex seg s n) = ((seg s).take n).flatten ∧ s.drop (byteIndex seg s n) = ((seg s).drop n).flatten := by
  have e : ((seg s).take n).flatten ++ ((seg s).drop n).flatten = s := by
    rw [← List.flatten_append, List.take_append_drop, h.join]
  have hidx : byteIndex seg s n = ((seg s).take n).flatten.length := by
    unfold byteIndex
    split
    · rfl
    · have hn' : n = (seg s).length := by omega
      rw [hn', List.take_length, h.join]
  rw [hidx]
  generalize ((seg s).take n).flatten = a at e ⊢
  generalize ((seg s).drop n).flatten = b at e ⊢
  rw [← e]
  exact ⟨List.take_left, List.drop_left⟩

theorem range_at {seg : List Char → List (List Char)} (h : SegOk seg) (s : List Char) (n : Nat) (hn : n < (seg s).length) :
    byteRange seg s n = some (byteIndex seg s n, byteIndex seg s (n + 1)) := by
  unfold byteRange byteIndex
  rw [if_pos hn, if_pos hn]

/-! ### C76: editing -/

/-- The text before the cursor. -/
def Input.before (seg : List Char → List (List Char)) (i : Input) : List Char := ((seg i.value).take i.cursor).flatten
/-- The text from the cursor on. -/
def Input.after (seg : List Char → List (List Char)) (i : Input) : List Char := ((seg i.value).drop i.cursor).flatten

theorem before_after {seg : List Char → List (List Char)} (h : SegOk seg) (i : Input) :
    i.before seg ++ i.after seg = i.value := by
  unfold Input.before Input.after
  rw [← List.flatten_append, List.take_append_drop, h.join]

theorem take_min {α : Type} (l : List α) (n : Nat) : l.take (min n l.length) = l.take n := by
  rw [List.take_eq_take_iff]; omega

theorem drop_min {α : Type} (l : List α) (n : Nat) : l.drop (min n l.length) = l.drop n := by
  by_cases h : n ≤ l.length
  · rw [Nat.min_eq_left h]
  · rw [Nat.min_eq_right (by omega), List.drop_length, List.drop_eq_nil_of_le (by omega)]

/-- C76: a typed character goes exactly between the text before and the text after the cursor. -/
theorem type_inserts {seg : List Char → List (List Char)} (h : SegOk seg) (i : Input) (c : Char)
    (he : i.disabled = false ∧ i.visible = true) :
    (i.onKey seg (.char c)).value = i.before seg ++ c :: i.after seg := by
  have s := split_at h i.value (min i.cursor (seg i.value).length) (Nat.min_le_right _ _)
  simp only [Input.onKey, he.1, he.2, Bool.not_true, Bool.or_self, Bool.false_eq_true, if_false, Input.insertChar,
    Input.refresh]
  rw [s.1, s.2, take_min, drop_min]
  rfl

/-- C76: Backspace removes the grapheme before the cursor, whatever its length, and nothing else; at the
beginning it does nothing. -/
theorem backspace_removes {seg : List Char → List (List Char)} (h : SegOk seg) (i : Input)
    (he : i.disabled = false ∧ i.visible = true) (hc : i.cursor ≤ (seg i.value).length) :
    (i.onKey seg .backspace).value = ((seg i.value).take (i.cursor - 1)).flatten ++ i.after seg ∧
    (i.onKey seg .backspace).cursor = i.cursor - 1 := by
  simp only [Input.onKey, he.1, he.2, Bool.not_true, Bool.or_self, Bool.false_eq_true, if_false, Input.backspace]
  split
  · rename_i h0
    have := before_after h i
    unfold Input.before at this
    rw [h0] at this ⊢
    exact ⟨this.symm, rfl⟩
  · rename_i h0
    rw [Nat.min_eq_left hc, range_at h _ _ (by omega), show i.cursor - 1 + 1 = i.cursor by omega]
    dsimp only [Input.refresh]
    rw [(split_at h i.value (i.cursor - 1) (by omega)).1, (split_at h i.value i.cursor hc).2]
    exact ⟨rfl, rfl⟩

/-- C76: Delete removes the grapheme at the cursor and nothing else; the cursor stays. -/
theorem delete_removes {seg : List Char → List (List Char)} (h : SegOk seg) (i : Input)
    (he : i.disabled = false ∧ i.visible = true) :
    (i.onKey seg .delete).value = i.before seg ++ ((seg i.value).drop (i.cursor + 1)).flatten ∧
    (i.onKey seg .delete).cursor = i.cursor := by
  simp only [Input.onKey, he.1, he.2, Bool.not_true, Bool.or_self, Bool.false_eq_true, if_false, Input.delete]
  by_cases hc : i.cursor < (seg i.value).length
  · rw [Nat.min_eq_left (by omega), range_at h _ _ hc]
    dsimp only [Input.refresh]
    rw [(split_at h i.value i.cursor (by omega)).1, (split_at h i.value (i.cursor + 1) (by omega)).2]
    exact ⟨rfl, rfl⟩
  · rw [Nat.min_eq_right (by omega)]
    have : byteRange seg i.value (seg i.value).length = none := by
      unfold byteRange; rw [if_neg (by omega)]
    rw [this]
    dsimp only [Input.refresh]
    have := before_after h i
    unfold Input.after at this
    rw [List.drop_eq_nil_of_le (by omega)] at this ⊢
    exact ⟨this.symm, rfl⟩

/-- The text before and after the cursor of an ordinary editor. -/
structure Zip where
  left : List Char := []
  right : List Char := []
deriving DecidableEq, Repr

/-- What a key does in an ordinary editor. -/
def Zip.key (z : Zip) : Key → Zip
  | .char c => ⟨z.left ++ [c], z.right⟩
  | .backspace => ⟨z.left.dropLast, z.right⟩
  | .delete => ⟨z.left, z.right.tail⟩
  | .left => ⟨z.left.dropLast, z.left.getLast?.toList ++ z.right⟩
  | .right => ⟨z.left ++ z.right.head?.toList, z.right.tail⟩
  | .home => ⟨[], z.left ++ z.right⟩
  | .end => ⟨z.left ++ z.right, []⟩
  | .other => z

/-- The keys that type plain characters, and all other keys. -/
def PlainKey (P : Char → Prop) : Key → Prop
  | .char c => P c
  | _ => True

theorem flatten_singles (l : List Char) : (l.map ([·])).flatten = l := by
  induction l with
  | nil => rfl
  | cons c l ih => rw [List.map_cons, List.flatten_cons, ih]; rfl

/-- The input shows the state of the editor. -/
def Rel (P : Char → Prop) (i : Input) (z : Zip) : Prop :=
  i.value = z.left ++ z.right ∧ i.cursor = z.left.length ∧ i.disabled = false ∧ i.visible = true ∧ ∀ c ∈ i.value, P c

theorem rel_key {seg : List Char → List (List Char)} {P : Char → Prop} (h : SegOk seg) (hp : Plain seg P)
    {i : Input} {z : Zip} (r : Rel P i z) (k : Key) (hk : PlainKey P k) : Rel P (i.onKey seg k) (z.key k) := by
  obtain ⟨r1, r2, r3, r4, r5⟩ := r
  have hseg := hp i.value r5
  have hlen : (seg i.value).length = i.value.length := by rw [hseg, List.length_map]
  have htake : ∀ n, ((seg i.value).take n).flatten = i.value.take n := by
    intro n; rw [hseg, ← List.map_take, flatten_singles]
  have hdrop : ∀ n, ((seg i.value).drop n).flatten = i.value.drop n := by
    intro n; rw [hseg, ← List.map_drop, flatten_singles]
  have hb : i.before seg = z.left := by
    unfold Input.before; rw [htake, r1, r2, List.take_left]
  have ha : i.after seg = z.right := by
    unfold Input.after; rw [hdrop, r1, r2, List.drop_left]
  have hcur : i.cursor ≤ (seg i.value).length := by rw [hlen, r1, r2]; simp
  have hflags : ∀ k, (i.onKey seg k).disabled = false ∧ (i.onKey seg k).visible = true := by
    intro k
    unfold Input.onKey
    rw [if_neg (by simp [r3, r4])]
    cases k <;> dsimp only [Input.insertChar, Input.backspace, Input.delete, Input.refresh]
    · exact ⟨r3, r4⟩
    · split
      · exact ⟨r3, r4⟩
      · split <;> exact ⟨r3, r4⟩
    · split <;> exact ⟨r3, r4⟩
    · split <;> exact ⟨r3, r4⟩
    · split <;> exact ⟨r3, r4⟩
    · exact ⟨r3, r4⟩
    · exact ⟨r3, r4⟩
    · exact ⟨r3, r4⟩
  have mk : ∀ {v : List Char} {n : Nat}, (i.onKey seg k).value = v → (i.onKey seg k).cursor = n →
      v = (z.key k).left ++ (z.key k).right → n = (z.key k).left.length → (∀ c ∈ v, P c) →
      Rel P (i.onKey seg k) (z.key k) := by
    intro v n e1 e2 e3 e4 e5
    exact ⟨e1.trans e3, e2.trans e4, (hflags k).1, (hflags k).2, by rw [e1]; exact e5⟩
  have pl : ∀ c ∈ z.left, P c := fun c hc => r5 c (by rw [r1]; simp [hc])
  have pr : ∀ c ∈ z.right, P c := fun c hc => r5 c (by rw [r1]; simp [hc])
  cases k with
  | char c =>
    refine mk (type_inserts h i c ⟨r3, r4⟩) (n := i.cursor + 1) ?_ ?_ ?_ ?_
    · simp [Input.onKey, r3, r4, Input.insertChar, Input.refresh]; omega
    · rw [hb, ha]; simp [Zip.key]
    · rw [r2]; simp [Zip.key]
    · rw [hb, ha]
      intro d hd
      simp only [List.mem_append, List.mem_cons] at hd
      rcases hd with hd | rfl | hd
      · exact pl d hd
      · exact hk
      · exact pr d hd
  | backspace =>
    have e := backspace_removes h i ⟨r3, r4⟩ hcur
    have e1 : ((seg i.value).take (i.cursor - 1)).flatten = z.left.dropLast := by
      rw [htake, r1, r2, List.dropLast_eq_take, List.take_append_of_le_length (by omega)]
    refine mk e.1 e.2 ?_ ?_ ?_
    · rw [e1, ha]; rfl
    · rw [r2]; simp [Zip.key]
    · rw [e1, ha]
      intro d hd
      rcases List.mem_append.1 hd with hd | hd
      · exact pl d (List.mem_of_mem_dropLast hd)
      · exact pr d hd
  | delete =>
    have e := delete_removes h i ⟨r3, r4⟩
    have e1 : ((seg i.value).drop (i.cursor + 1)).flatten = z.right.tail := by
      rw [hdrop, r1, r2, ← List.drop_drop, List.drop_left, List.drop_one]
    refine mk e.1 e.2 ?_ ?_ ?_
    · rw [e1, hb]; rfl
    · rw [r2]; rfl
    · rw [e1, hb]
      intro d hd
      rcases List.mem_append.1 hd with hd | hd
      · exact pl d hd
      · exact pr d (List.mem_of_mem_tail hd)
  | left =>
    have ev : (i.onKey seg .left).value = i.value := by
      simp only [Input.onKey, r3, r4, Input.refresh]; simp only [Bool.not_true, Bool.or_self, Bool.false_eq_true, if_false]
      split <;> rfl
    refine mk ev (n := i.cursor - 1) ?_ ?_ ?_ r5
    · simp only [Input.onKey, r3, r4, Input.refresh]; simp only [Bool.not_true, Bool.or_self, Bool.false_eq_true, if_false]
      split
      · rfl
      · show i.cursor = _
        omega
    · rw [r1]
      simp only [Zip.key]
      rcases List.eq_nil_or_concat z.left with e | ⟨l, x, e⟩
      · rw [e]; rfl
      · rw [e]; simp
    · rw [r2]; simp [Zip.key]
  | right =>
    have ev : (i.onKey seg .right).value = i.value := by
      simp only [Input.onKey, r3, r4, Input.refresh]; simp only [Bool.not_true, Bool.or_self, Bool.false_eq_true, if_false]
      split <;> rfl
    have hl2 : (seg i.value).length = z.left.length + z.right.length := by rw [hlen, r1, List.length_append]
    refine mk ev (n := min (i.cursor + 1) (seg i.value).length) ?_ ?_ ?_ r5
    · simp only [Input.onKey, r3, r4, Input.refresh]; simp only [Bool.not_true, Bool.or_self, Bool.false_eq_true, if_false]
      split
      · dsimp only; omega
      · omega
    · rw [r1]
      simp only [Zip.key]
      cases z.right <;> simp
    · rw [hl2, r2]
      simp only [Zip.key]
      cases z.right with
      | nil => simp
      | cons x xs => simp
  | home =>
    refine mk (v := i.value) (n := 0) ?_ ?_ ?_ rfl r5
    · simp [Input.onKey, r3, r4, Input.refresh]
    · simp [Input.onKey, r3, r4, Input.refresh]
    · rw [r1]; simp [Zip.key]
  | «end» =>
    refine mk (v := i.value) (n := (seg i.value).length) ?_ ?_ ?_ ?_ r5
    · simp [Input.onKey, r3, r4, Input.refresh]
    · simp [Input.onKey, r3, r4, Input.refresh]
    · rw [r1]; simp [Zip.key]
    · rw [hlen, r1]; rfl
  | other =>
    refine mk (v := i.value) (n := i.cursor) ?_ ?_ r1 r2 r5
    · simp [Input.onKey, r3, r4]
    · simp [Input.onKey, r3, r4]

/-- An editor with the other things a program can set. -/
structure Editor where
  zip : Zip := {}
  placeholder : Option (List Char) := none
  focused : Bool := false
  disabled : Bool := false
  visible : Bool := true

/-- What an operation does: keys edit if the widget is enabled and visible; a new value keeps the cursor if
it is long enough, otherwise the cursor is at its end. -/
def Editor.step (e : Editor) : Op → Editor
  | .key k => if e.disabled = false ∧ e.visible = true then { e with zip := e.zip.key k } else e
  | .setValue v => { e with zip := ⟨v.take e.zip.left.length, v.drop e.zip.left.length⟩ }
  | .setCursor n => { e with zip := ⟨(e.zip.left ++ e.zip.right).take n, (e.zip.left ++ e.zip.right).drop n⟩ }
  | .setPlaceholder p => { e with placeholder := some p }
  | .clearPlaceholder => { e with placeholder := none }
  | .setFocus on => { e with focused := on }
  | .setDisabled on => { e with disabled := on }
  | .setVisible on => { e with visible := on }

/-- Operations that bring plain characters only. -/
def PlainOp (P : Char → Prop) : Op → Prop
  | .key k => PlainKey P k
  | .setValue v => ∀ c ∈ v, P c
  | _ => True

/-- The input shows the state of the editor. -/
def RelE (P : Char → Prop) (i : Input) (e : Editor) : Prop :=
  i.value = e.zip.left ++ e.zip.right ∧ i.cursor = e.zip.left.length ∧ i.placeholder = e.placeholder ∧
  i.focused = e.focused ∧ i.disabled = e.disabled ∧ i.visible = e.visible ∧ ∀ c ∈ i.value, P c

theorem onKey_rest (seg : List Char → List (List Char)) (i : Input) (k : Key) :
    (i.onKey seg k).placeholder = i.placeholder ∧ (i.onKey seg k).focused = i.focused ∧
    (i.onKey seg k).disabled = i.disabled ∧ (i.onKey seg k).visible = i.visible := by
  unfold Input.onKey
  split
  · exact ⟨rfl, rfl, rfl, rfl⟩
  · cases k <;> dsimp only [Input.insertChar, Input.backspace, Input.delete, Input.refresh]
    · exact ⟨rfl, rfl, rfl, rfl⟩
    · split
      · exact ⟨rfl, rfl, rfl, rfl⟩
      · split <;> exact ⟨rfl, rfl, rfl, rfl⟩
    · split <;> exact ⟨rfl, rfl, rfl, rfl⟩
    · split <;> exact ⟨rfl, rfl, rfl, rfl⟩
    · split <;> exact ⟨rfl, rfl, rfl, rfl⟩
    · exact ⟨rfl, rfl, rfl, rfl⟩
    · exact ⟨rfl, rfl, rfl, rfl⟩
    · exact ⟨rfl, rfl, rfl, rfl⟩

theorem relE_step {seg : List Char → List (List Char)} {P : Char → Prop} (h : SegOk seg) (hp : Plain seg P)
    {i : Input} {e : Editor} (r : RelE P i e) (op : Op) (hop : PlainOp P op) : RelE P (i.step seg op) (e.step op) := by
  obtain ⟨r1, r2, r3, r4, r5, r6, r7⟩ := r
  have hlen : ∀ v : List Char, (∀ c ∈ v, P c) → (seg v).length = v.length := by
    intro v hv; rw [hp v hv, List.length_map]
  cases op with
  | key k =>
    show RelE P (i.onKey seg k) _
    unfold Editor.step
    by_cases hen : e.disabled = false ∧ e.visible = true
    · dsimp only
      rw [if_pos hen]
      have r' : Rel P i e.zip := ⟨r1, r2, by rw [r5]; exact hen.1, by rw [r6]; exact hen.2, r7⟩
      obtain ⟨k1, k2, _, _, k5⟩ := rel_key h hp r' k hop
      obtain ⟨f1, f2, f3, f4⟩ := onKey_rest seg i k
      exact ⟨k1, k2, f1.trans r3, f2.trans r4, f3.trans r5, f4.trans r6, k5⟩
    · dsimp only
      rw [if_neg hen]
      have : i.onKey seg k = i := by
        unfold Input.onKey
        rw [if_pos]
        rw [r5, r6]
        revert hen
        cases e.disabled <;> cases e.visible <;> simp
      rw [this]
      exact ⟨r1, r2, r3, r4, r5, r6, r7⟩
  | setValue v =>
    refine ⟨?_, ?_, r3, r4, r5, r6, hop⟩
    · show v = _
      exact (List.take_append_drop _ _).symm
    · show min i.cursor (seg v).length = _
      rw [hlen v hop, r2]
      simp [Editor.step]
  | setCursor n =>
    refine ⟨?_, ?_, r3, r4, r5, r6, r7⟩
    · show i.value = _
      rw [r1]
      exact (List.take_append_drop _ _).symm
    · show min n (seg i.value).length = _
      rw [hlen _ r7, r1]
      simp [Editor.step]
  | setPlaceholder p => exact ⟨r1, r2, rfl, r4, r5, r6, r7⟩
  | clearPlaceholder => exact ⟨r1, r2, rfl, r4, r5, r6, r7⟩
  | setFocus on =>
    by_cases hf : i.focused = on
    · have : i.step seg (.setFocus on) = i := by simp [Input.step, hf]
      rw [this]
      exact ⟨r1, r2, r3, hf, r5, r6, r7⟩
    · have : i.step seg (.setFocus on) = { i with focused := on }.refresh seg := by simp [Input.step, hf]
      rw [this]
      exact ⟨r1, r2, r3, rfl, r5, r6, r7⟩
  | setDisabled on => exact ⟨r1, r2, r3, r4, rfl, r6, r7⟩
  | setVisible on => exact ⟨r1, r2, r3, r4, r5, rfl, r7⟩

/-- C76, for plain characters: after any sequence of keys and of calls by the program the input holds the
text and the cursor of an ordinary editor, and the settings last made.  Missing: characters that join with
their neighbours (`type_combining_counterexample`). -/
theorem editor_partial {seg : List Char → List (List Char)} {P : Char → Prop} (h : SegOk seg) (hp : Plain seg P)
    (ops : List Op) (hk : ∀ op ∈ ops, PlainOp P op) :
    let i := ops.foldl (Input.step seg) {}
    let e := ops.foldl Editor.step {}
    i.value = e.zip.left ++ e.zip.right ∧ i.cursor = e.zip.left.length ∧ i.before seg = e.zip.left ∧
      i.after seg = e.zip.right ∧ i.placeholder = e.placeholder ∧ i.focused = e.focused ∧
      i.disabled = e.disabled ∧ i.visible = e.visible := by
  have key : ∀ (ops : List Op) (i : Input) (e : Editor), RelE P i e → (∀ op ∈ ops, PlainOp P op) →
      RelE P (ops.foldl (Input.step seg) i) (ops.foldl Editor.step e) := by
    intro ops
    induction ops with
    | nil => intro i z r _; exact r
    | cons op ops ih =>
      intro i e r hk
      exact ih _ _ (relE_step h hp r op (hk op (by simp))) (fun k' hk' => hk k' (by simp [hk']))
  obtain ⟨r1, r2, r3, r4, r5, r6, r7⟩ := key ops {} {} ⟨rfl, rfl, rfl, rfl, rfl, rfl, by simp⟩ hk
  have hseg := hp _ r7
  refine ⟨r1, r2, ?_, ?_, r3, r4, r5, r6⟩
  · unfold Input.before
    rw [hseg, ← List.map_take, flatten_singles, r1, r2, List.take_left]
  · unfold Input.after
    rw [hseg, ← List.map_drop, flatten_singles, r1, r2, List.drop_left]

/-- A segmentation with one combining character, U+0301, which joins the character before it. -/
def segAccent : List Char → List (List Char)
  | [] => []
  | c :: s => match segAccent s with
    | [] => [[c]]
    | g :: gs => if g.head? = some '́' then (c :: g) :: gs else [c] :: g :: gs

theorem segAccent_ok : SegOk segAccent := by
  constructor
  · intro s
    induction s with
    | nil => rfl
    | cons c s ih =>
      rw [segAccent]
      split
      · rename_i e; rw [e] at ih; simp at ih; simp [← ih]
      · rename_i g gs e
        rw [e] at ih
        split <;> simp [← ih]
  · intro s
    induction s with
    | nil => intro g hg; cases hg
    | cons c s ih =>
      rw [segAccent]
      split
      · intro g hg; simp at hg; simp [hg]
      · rename_i g gs e
        rw [e] at ih
        split
        · intro x hx
          rcases List.mem_cons.1 hx with rfl | hx
          · simp
          · exact ih x (by simp [hx])
        · intro x hx
          rcases List.mem_cons.1 hx with rfl | hx
          · simp
          · exact ih x hx

theorem segAccent_plain : Plain segAccent (· ≠ '́') := by
  intro s
  induction s with
  | nil => intro _; rfl
  | cons c s ih =>
    intro h
    rw [segAccent, ih (fun d hd => h d (by simp [hd]))]
    cases s with
    | nil => rfl
    | cons d s =>
      rw [List.map_cons]
      dsimp only
      rw [if_neg]
      · simp
      · simpa using h d (by simp)

example :
    let ops : List Op := [.key (.char 'a'), .setValue "ab".toList, .key .left, .key (.char 'x'), .key .home, .key .delete,
      .setDisabled true, .key (.char 'y'), .setDisabled false, .setCursor 9, .key .backspace]
    (∀ op ∈ ops, PlainOp (· ≠ '\u0301') op) ∧ (ops.foldl (Input.step segAccent) {}).value = "a".toList ∧
      (ops.foldl Editor.step {}).zip = ⟨"a".toList, []⟩ := by
  refine ⟨?_, by decide +kernel, by decide +kernel⟩
  intro k hk
  simp only [List.mem_cons, List.not_mem_nil, or_false] at hk
  rcases hk with rfl | rfl | rfl | rfl | rfl | rfl | rfl | rfl | rfl | rfl | rfl <;> simp [PlainOp, PlainKey]

/-- C76 is false for combining characters: an accent typed behind the `a` of `ab` joins the `a`, but the
cursor moves by one grapheme, behind the `b`; the next character is inserted in the wrong place. -/
theorem type_combining_counterexample :
    ∃ seg, SegOk seg ∧
      let keys : List Key := [.char 'a', .char 'b', .left, .char '́', .char 'x']
      (keys.foldl (Input.onKey seg) {}).value = ['a', '́', 'b', 'x'] ∧
      (keys.foldl Zip.key {}).left ++ (keys.foldl Zip.key {}).right = ['a', '́', 'x', 'b'] :=
  ⟨segAccent, segAccent_ok, by decide +kernel, by decide +kernel⟩

/-- C76: a disabled or hidden input ignores every key. -/
theorem disabled_ignores (seg : List Char → List (List Char)) (i : Input) (h : i.disabled = true ∨ i.visible = false)
    (k : Key) : i.onKey seg k = i := by
  unfold Input.onKey
  rw [if_pos]
  rcases h with h | h <;> simp [h]

example : ({ disabled := true } : Input).onKey segAccent (.char 'a') = { disabled := true } := by decide +kernel

/-! ### C77: the display -/

/-- The display is always that of the current state, whatever the program does. -/
theorem display_current (seg : List Char → List (List Char)) (ops : List Op) :
    (ops.foldl (Input.step seg) {}).shown = (ops.foldl (Input.step seg) {}).buildDisplay seg := by
  have key : ∀ (ops : List Op) (i : Input), i.shown = i.buildDisplay seg →
      (ops.foldl (Input.step seg) i).shown = (ops.foldl (Input.step seg) i).buildDisplay seg := by
    intro ops
    induction ops with
    | nil => intro i h; exact h
    | cons op ops ih =>
      intro i h
      apply ih
      have hr : ∀ j : Input, (j.refresh seg).shown = (j.refresh seg).buildDisplay seg := fun j => rfl
      cases op with
      | key k =>
        simp only [Input.step, Input.onKey]
        split
        · exact h
        · cases k <;> dsimp only
          · exact hr _
          · unfold Input.backspace
            split
            · exact h
            · dsimp only; split <;> exact hr _
          · unfold Input.delete; dsimp only; split <;> exact hr _
          · split
            · exact hr _
            · exact h
          · split
            · exact hr _
            · exact h
          · exact hr _
          · exact hr _
          · exact h
      | setFocus on =>
        simp only [Input.step]
        split
        · exact hr _
        · exact h
      | setDisabled on => exact h
      | setVisible on => exact h
      | _ => exact hr _
  exact key ops {} rfl

example : ([Op.setFocus true, .setPlaceholder "Name".toList, .key (.char 'x')].foldl (Input.step segAccent) {}).shown =
    "x[#121212 on #e0e0e0] [/]".toList := by decide +kernel

/-- What the user is to see: pieces of text with their styles.  The value as it is, brackets and
backslashes included; with the focus, the grapheme at the cursor (or a blank behind the end) in the cursor
style; without a value the placeholder. -/
def Input.expected (seg : List Char → List (List Char)) (cur ph : Style) (i : Input) : List (Style × List Char) :=
  if i.value ≠ [] then
    if i.focused then
      match (seg i.value)[i.cursor]? with
      | some g => [({}, i.before seg), (cur, g), ({}, ((seg i.value).drop (i.cursor + 1)).flatten)]
      | none => [({}, i.value), (cur, [' '])]
    else [({}, i.value)]
  else match i.placeholder with
    | none => if i.focused then [(cur, [' '])] else []
    | some p =>
      if i.focused then
        match seg p with
        | g :: gs => [(cur, g), (ph, gs.flatten)]
        | [] => [(cur, [' '])]
      else [(ph, p)]

theorem pieceSpans_info (ps : List Piece) (start : Nat) : ∀ s ∈ Markup.pieceSpans start ps, s.info = [] := by
  induction ps generalizing start with
  | nil => intro s h; cases h
  | cons p ps ih =>
    intro s h
    rw [Markup.pieceSpans, List.mem_append] at h
    rcases h with h | h
    · split at h
      · rw [List.mem_singleton.1 h]
      · cases h
    · exact ih _ s h

/-- C77: the markup handed to the display shows exactly the expected pieces: their texts, and for every
character the style of its piece. Nothing typed becomes a link. -/
theorem display_exact (ext : Ext) {seg : List Char → List (List Char)} (h : SegOk seg) (cur ph : Style)
    (hcur : IsTag ext cursorStyle cur) (hph : IsTag ext placeholderStyle ph) (i : Input) :
    ∃ m, parse ext (i.buildDisplay seg) = .ok m ∧ m.text = (i.expected seg cur ph).flatMap (·.2) ∧
      (∀ sp ∈ m.spans, sp.info = []) ∧
      ∀ pre s a c b post, i.expected seg cur ph = pre ++ (s, a ++ c :: b) :: post →
        m.styleAt (blen (pre.flatMap (·.2)) + blen a) = s := by
  -- it is enough to give the pieces with their tags
  have main : ∀ ps : List Piece, (∀ p ∈ ps, p.Ok ext) → i.buildDisplay seg = ps.flatMap Piece.src →
      i.expected seg cur ph = ps.map (fun p => (p.style, p.text)) →
      ∃ m, parse ext (i.buildDisplay seg) = .ok m ∧ m.text = (i.expected seg cur ph).flatMap (·.2) ∧
        (∀ sp ∈ m.spans, sp.info = []) ∧
        ∀ pre s a c b post, i.expected seg cur ph = pre ++ (s, a ++ c :: b) :: post →
          m.styleAt (blen (pre.flatMap (·.2)) + blen a) = s := by
    intro ps hok e1 e2
    have etext : ∀ l : List Piece, (l.map (fun p => (p.style, p.text))).flatMap (·.2) = l.flatMap (·.text) := by
      intro l; rw [List.flatMap_map]
    refine ⟨⟨ps.flatMap (·.text), pieceSpans 0 ps⟩, ?_, ?_, pieceSpans_info ps 0, ?_⟩
    · rw [e1]; exact pieces_parse ext ps hok
    · rw [e2, etext]
    · intro pre s a c b post e3
      rw [e2] at e3
      obtain ⟨l1, l2, hl, hl1, hl2⟩ := List.map_eq_append_iff.1 e3
      obtain ⟨p, l3, hl3, hp, hl4⟩ := List.map_eq_cons_iff.1 hl2
      subst hl3 hl
      have := pieces_style ext l1 p l3 hok a c b (congrArg Prod.snd hp)
      rw [← hl1, etext, this]
      exact congrArg Prod.fst hp
  have okCur : ∀ t, (Piece.mk (some cursorStyle) cur t).Ok ext := fun _ => hcur
  have okPh : ∀ t, (Piece.mk (some placeholderStyle) ph t).Ok ext := fun _ => hph
  have okNo : ∀ t, (Piece.mk none {} t).Ok ext := fun _ => rfl
  have hblank : escape " ".toList = " ".toList := by decide
  by_cases hv : i.value = []
  · have hbd : i.buildDisplay seg = match i.placeholder with
        | some p =>
          if !i.focused then tagged placeholderStyle (escape p)
          else if p.isEmpty then tagged cursorStyle " ".toList
          else
            match seg p with
            | first :: rest => tagged cursorStyle (escape first) ++ tagged placeholderStyle (escape rest.flatten)
            | [] => tagged cursorStyle (escape " ".toList) ++ tagged placeholderStyle (escape [])
        | none => if !i.focused then [] else tagged cursorStyle " ".toList := by
      unfold Input.buildDisplay
      rw [if_pos (by simp [hv])]
      cases i.placeholder <;> rfl
    have hex : i.expected seg cur ph = match i.placeholder with
        | none => if i.focused then [(cur, [' '])] else []
        | some p =>
          if i.focused then
            match seg p with
            | g :: gs => [(cur, g), (ph, gs.flatten)]
            | [] => [(cur, [' '])]
          else [(ph, p)] := by
      unfold Input.expected
      rw [if_neg (by simp [hv])]
    cases hp : i.placeholder with
    | none =>
      rw [hp] at hbd hex
      cases hf : i.focused with
      | false =>
        rw [hf] at hbd hex
        exact main [] (by simp) hbd hex
      | true =>
        rw [hf] at hbd hex
        refine main [⟨some cursorStyle, cur, " ".toList⟩] (by simp [okCur]) ?_ hex
        rw [hbd]
        simp [Piece.src, tagged, escape, escapeChar]
    | some p =>
      rw [hp] at hbd hex
      cases hf : i.focused with
      | false =>
        rw [hf] at hbd hex
        refine main [⟨some placeholderStyle, ph, p⟩] (by simp [okPh]) ?_ hex
        rw [hbd]
        simp [Piece.src, tagged]
      | true =>
        rw [hf] at hbd hex
        cases hs : seg p with
        | nil =>
          have hpe : p = [] := by rw [← h.join p, hs]; rfl
          simp only [hs] at hbd hex
          refine main [⟨some cursorStyle, cur, " ".toList⟩] (by simp [okCur]) ?_ hex
          rw [hbd, hpe]
          simp [Piece.src, tagged, escape, escapeChar]
        | cons g gs =>
          have hpe : p ≠ [] := by
            intro e
            have := h.join p
            rw [hs, e] at this
            have hg := h.nonempty p g (by rw [hs]; simp)
            simp at this
            exact hg this.1
          simp only [hs] at hbd hex
          refine main [⟨some cursorStyle, cur, g⟩, ⟨some placeholderStyle, ph, gs.flatten⟩] (by simp [okCur, okPh]) ?_ hex
          rw [hbd]
          simp [Piece.src, tagged, hpe]
  · have hve : i.value.isEmpty = false := by simpa using hv
    cases hf : i.focused with
    | false =>
      refine main [⟨none, {}, i.value⟩] (by simp [okNo]) ?_ ?_
      · unfold Input.buildDisplay
        simp [hve, hf, Piece.src]
      · unfold Input.expected
        simp [hv, hf]
    | true =>
      by_cases hc : i.cursor < (seg i.value).length
      · have hg : (seg i.value)[i.cursor]? = some (seg i.value)[i.cursor] := List.getElem?_eq_getElem hc
        refine main [⟨none, {}, i.before seg⟩, ⟨some cursorStyle, cur, (seg i.value)[i.cursor]⟩,
          ⟨none, {}, ((seg i.value).drop (i.cursor + 1)).flatten⟩] (by simp [okCur, okNo]) ?_ ?_
        · unfold Input.buildDisplay
          simp only [hve, hf, Bool.false_eq_true, if_false, Bool.not_true]
          rw [Nat.min_eq_left (by omega), hg]
          simp [Piece.src, tagged, Input.before]
        · unfold Input.expected
          rw [if_pos hv, hf, if_pos rfl, hg]
          rfl
      · have hg : (seg i.value)[i.cursor]? = none := List.getElem?_eq_none (by omega)
        refine main [⟨none, {}, i.value⟩, ⟨some cursorStyle, cur, " ".toList⟩] (by simp [okCur, okNo]) ?_ ?_
        · unfold Input.buildDisplay
          simp only [hve, hf, Bool.false_eq_true, if_false, Bool.not_true]
          rw [Nat.min_eq_right (by omega), List.getElem?_eq_none (by omega)]
          simp [Piece.src, tagged, escape, escapeChar]
        · unfold Input.expected
          rw [if_pos hv, hf, if_pos rfl, hg]
          rfl

example : IsTag asciiExt cursorStyle { fg := some (.rgb 18 18 18), bg := some (.rgb 224 224 224) } ∧
    IsTag asciiExt placeholderStyle { fg := some (.rgb 109 116 121) } :=
  ⟨⟨by decide, by decide, by decide +kernel, by decide⟩, ⟨by decide, by decide, by decide +kernel, by decide⟩⟩

example : ({ value := "a[b".toList, cursor := 1, focused := true } : Input).expected segAccent { fg := some (.rgb 1 1 1) } {} =
    [({}, ['a']), ({ fg := some (.rgb 1 1 1) }, ['[']), ({}, ['b'])] := by decide +kernel

end Textual.Input
