import Verif.Lemmas.Tree
import Mathlib.Data.List.Rotate
import Mathlib.Tactic.Common

/-!
Focus in the widget tree: C68 (one focus), C69 (the Tab cycle), C70 (keys go to the focused widget),
C71 (focus by id).  Queries, bubbling and the walks are in `Props/TreeQuery.lean`.
-/

namespace Textual.Tree

open W

/-! ### An example tree: a screen with a hidden button, two buttons and a column with an input -/

/-- A button with an id. -/
def button (id : String) (visible : Bool := true) : W :=
  .node .press { id := some id, typeName := "Button", focusable := true, visible := visible } []

/-- A screen with the buttons `a` and `b` and a column with an input `c` and a label. -/
def demo : W :=
  .node .screen { typeName := "Screen" }
    [button "a",
     .node .container { typeName := "Container" }
      [.node .leaf { id := some "c", typeName := "Input", focusable := true } [],
       .node .leaf { id := some "l", typeName := "Label" } []],
     button "b"]

theorem button_ok (id : String) (v : Bool) : (button id v).Ok := by
  intro p c h
  cases p with
  | nil => cases h; refine ⟨fun _ => rfl, fun _ => rfl, fun h => ?_⟩; cases h
  | cons i p => simp [button, at?, exposed] at h

theorem leaf_ok (a : Attrs) (cs : List W) : (W.node .leaf a cs).Ok := by
  intro p c h
  cases p with
  | nil => cases h; refine ⟨fun _ => rfl, fun _ => rfl, fun h => ?_⟩; cases h
  | cons i p => simp [at?, exposed] at h

theorem box_ok (k : Kind) (a : Attrs) (cs : List W) (h1 : a.focusable = false) (h2 : a.focused = false)
    (hk : k = .wrapper → cs.length = 1) (h : ∀ c ∈ cs, c.Ok) : (W.node k a cs).Ok := by
  intro p c hp
  cases p with
  | nil =>
    cases hp
    refine ⟨fun e => ?_, fun e => ?_, hk⟩
    · rw [show (W.node k a cs).attrs = a from rfl, h1] at e; cases e
    · rw [show (W.node k a cs).attrs = a from rfl, h2] at e; cases e
  | cons i p =>
    rw [at?_cons] at hp
    cases hc : (W.node k a cs).exposed[i]? with
    | none => rw [hc] at hp; cases hp
    | some d =>
      rw [hc] at hp
      exact h d (exposed_subset _ _ (List.mem_of_getElem? hc)) p c hp

theorem demo_ok : demo.Ok := by
  refine box_ok _ _ _ rfl rfl (fun h => by cases h) ?_
  intro c hc
  simp only [List.mem_cons, List.not_mem_nil, or_false] at hc
  rcases hc with rfl | rfl | rfl
  · exact button_ok _ _
  · refine box_ok _ _ _ rfl rfl (fun h => by cases h) ?_
    intro c hc
    simp only [List.mem_cons, List.not_mem_nil, or_false] at hc
    rcases hc with rfl | rfl <;> exact leaf_ok _ _
  · exact button_ok _ _

example : demo.ring = [[0], [1, 0], [2]] := by decide +kernel

/-! ### C68: one focus -/

theorem mem_ring {w : W} {p : List Nat} : p ∈ w.ring ↔ (w.at? p).isSome ∧ w.reach p = true ∧ w.has (·.focusable) p = true := by
  unfold ring
  rw [List.mem_filter, mem_paths, Bool.and_eq_true]

/-- C68: asking for the `n`-th focusable widget gives the focus to the `n`-th widget of the ring and
takes it from every other widget that can be reached; a widget that is hidden keeps its flag.  Nothing
else in the tree changes, and the index is `n`. -/
theorem set_exact (t : WidgetTree) (hok : t.root.Ok) (n : Nat) (p : List Nat) (hp : t.root.ring[n]? = some p) :
    (t.setFocusIndex n).2 = true ∧ (t.setFocusIndex n).1.index = n ∧
    (t.setFocusIndex n).1.root.unfocused = t.root.unfocused ∧
    ∀ q, (t.setFocusIndex n).1.root.has (·.focused) q =
      (decide (q = p) || (t.root.has (·.focused) q && !t.root.reach q)) := by
  have hlt : n < t.root.ring.length := by
    by_contra h
    rw [List.getElem?_eq_none (by omega)] at hp
    cases hp
  have hc := count_eq t.root hok
  have hring : t.root.clearFocus.ring = t.root.ring := by
    rw [← unfocused_ring t.root.clearFocus, unfocused_clear _ hok, unfocused_ring]
  have hokc : t.root.clearFocus.Ok := by
    refine Ok_of_unfocused hok (unfocused_clear _ hok) ?_
    intro q c hq hfoc
    have h1 := clear_at t.root hok q
    rw [hq] at h1
    have h2 := clear_focused t.root hok q
    simp only [has, hq, Option.any_some, hfoc] at h2
    cases hw : t.root.at? q with
    | none => rw [hw] at h1; simp at h1
    | some d =>
      rw [hw] at h1 h2
      simp only [Option.map_some, Option.some.injEq] at h1
      rw [h1]
      refine (hok q d hw).2.1 ?_
      simp only [Option.any_some] at h2
      have := h2.symm
      simp only [Bool.and_eq_true] at this
      exact this.1
  have hroot : (t.setFocusIndex n).1.root = modifyAt giveFocus t.root.clearFocus p ∧ (t.setFocusIndex n).2 = true ∧
      (t.setFocusIndex n).1.index = n := by
    unfold WidgetTree.setFocusIndex
    rw [hc, if_neg (by omega), if_neg (by omega)]
    have hf := focusNth_eq t.root.clearFocus hokc n p (by rw [hring]; exact hp)
    simp only [hf, if_true]
    unfold WidgetTree.updateFocus
    dsimp only
    split
    · rename_i h; exact ⟨rfl, trivial, h.1.symm⟩
    · exact ⟨rfl, trivial, rfl⟩
  have hsome : (t.root.clearFocus.at? p).isSome := by
    have := mem_ring.1 (List.mem_of_getElem? (by rw [hring]; exact hp : t.root.clearFocus.ring[n]? = some p))
    exact this.1
  refine ⟨hroot.2.1, hroot.2.2, ?_, ?_⟩
  · rw [hroot.1, unfocused_modify, unfocused_clear _ hok]
  · intro q
    rw [hroot.1, modify_focused _ _ _ hsome, clear_focused _ hok]
    cases hq : t.root.at? q with
    | none => simp [has, hq]
    | some c =>
      simp only [has, hq, Option.any_some]
      cases hfoc : c.attrs.focused with
      | false => simp
      | true => rw [(hok q c hq).2.1 hfoc]; simp

example : demo.ring[1]? = some [1, 0] ∧
    demo.has (·.focused) [1, 0] = false ∧
    (({ root := demo } : WidgetTree).setFocusIndex 1).1.root.has (·.focused) [1, 0] = true := by decide +kernel

/-- C68: an index beyond the ring changes nothing; without any focusable widget no widget that can be
reached keeps the focus. -/
theorem set_out_of_range (t : WidgetTree) (hok : t.root.Ok) (n : Nat) (hn : t.root.ring.length ≤ n) :
    (t.setFocusIndex n).2 = false ∧ (t.setFocusIndex n).1.root.unfocused = t.root.unfocused ∧
    (t.root.ring ≠ [] → (t.setFocusIndex n).1 = t) ∧
    (t.root.ring = [] → ∀ q, (t.setFocusIndex n).1.root.has (·.focused) q =
      (t.root.has (·.focused) q && !t.root.reach q)) := by
  have hc := count_eq t.root hok
  unfold WidgetTree.setFocusIndex
  rw [hc]
  by_cases h0 : t.root.ring.length = 0
  · rw [if_pos h0]
    refine ⟨rfl, unfocused_clear _ hok, fun h => absurd (List.length_eq_zero_iff.1 h0) h, fun _ q => ?_⟩
    rw [clear_focused _ hok]
    cases hq : t.root.at? q with
    | none => simp [has, hq]
    | some c =>
      simp only [has, hq, Option.any_some]
      cases hfoc : c.attrs.focused with
      | false => simp
      | true => rw [(hok q c hq).2.1 hfoc]; simp
  · rw [if_neg h0, if_pos hn]
    exact ⟨rfl, rfl, fun _ => rfl, fun h => absurd (by rw [h]; rfl) h0⟩

example : demo.ring.length ≤ 3 ∧ demo.ring ≠ [] := by decide +kernel

theorem congr_of_unfocused {w w' : W} (e : w'.unfocused = w.unfocused) :
    w'.ring = w.ring ∧ w'.paths = w.paths ∧ (∀ p, w'.reach p = w.reach p) ∧ (∀ p, w'.shown p = w.shown p) ∧
    (∀ p, w'.has (·.focusable) p = w.has (·.focusable) p) := by
  refine ⟨?_, ?_, fun p => ?_, fun p => ?_, fun p => ?_⟩
  · rw [← unfocused_ring w', e, unfocused_ring]
  · rw [← unfocused_paths w', e, unfocused_paths]
  · rw [← unfocused_reach w', e, unfocused_reach]
  · rw [← unfocused_shown w', e, unfocused_shown]
  · rw [← unfocused_has w' _ (fun _ => rfl), e, unfocused_has w _ (fun _ => rfl)]

/-- Giving the focus to widgets of the ring keeps the tree well-formed. -/
theorem ok_of_focus {w w' : W} (h : w.Ok) (e : w'.unfocused = w.unfocused)
    (hf : ∀ q, w'.has (·.focused) q = true → q ∈ w.ring ∨ w.has (·.focused) q = true) : w'.Ok := by
  refine Ok_of_unfocused h e ?_
  intro p c' hc' hfoc
  have h1 := congrArg (fun x => x.at? p) e
  simp only [unfocused_at?, hc', Option.map_some] at h1
  cases hc : w.at? p with
  | none => rw [hc] at h1; simp at h1
  | some c =>
    rw [hc, Option.map_some, Option.some.injEq] at h1
    have hk := congrArg W.kind h1
    rw [unfocused_kind, unfocused_kind] at hk
    rw [hk]
    rcases hf p (by simp [has, hc', hfoc]) with hr | hr
    · have := (mem_ring.1 hr).2.2
      simp only [has, hc, Option.any_some] at this
      exact (h p c hc).1 this
    · simp only [has, hc, Option.any_some] at hr
      exact (h p c hc).2.1 hr

/-- What the program can do with the focus: the four methods, and the test before each frame. -/
inductive FocusOp
  | set (n : Nat) | next | prev | byId (id : String) | frame

/-- One operation. -/
def FocusOp.run (t : WidgetTree) : FocusOp → WidgetTree
  | .set n => (t.setFocusIndex n).1
  | .next => t.focusNext.1
  | .prev => t.focusPrevious.1
  | .byId id => (t.focusById id).1
  | .frame => t.fallback

/-- Every operation either does nothing or is a `set`. -/
theorem run_cases (t : WidgetTree) (op : FocusOp) :
    op.run t = t ∨ ∃ n, op.run t = (t.setFocusIndex n).1 := by
  cases op with
  | set n => exact Or.inr ⟨n, rfl⟩
  | next =>
    simp only [FocusOp.run, WidgetTree.focusNext]
    split
    · exact Or.inl rfl
    · exact Or.inr ⟨_, rfl⟩
  | prev =>
    simp only [FocusOp.run, WidgetTree.focusPrevious]
    split
    · exact Or.inl rfl
    · exact Or.inr ⟨_, rfl⟩
  | byId id =>
    simp only [FocusOp.run, WidgetTree.focusById]
    split
    · exact Or.inr ⟨_, rfl⟩
    · exact Or.inl rfl
  | frame =>
    simp only [FocusOp.run, WidgetTree.fallback]
    split
    · split
      · exact Or.inl rfl
      · exact Or.inr ⟨_, rfl⟩
    · exact Or.inl rfl

/-- The invariant: only the widget at the focus index is focused. -/
def Single (t0 t : WidgetTree) : Prop :=
  t.root.Ok ∧ t.root.unfocused = t0.root.unfocused ∧
    ∀ q, t.root.has (·.focused) q = true → t0.root.ring[t.index]? = some q

theorem single_set {t0 t : WidgetTree} (h : Single t0 t) (n : Nat) : Single t0 (t.setFocusIndex n).1 := by
  obtain ⟨hok, hu, hs⟩ := h
  have hr := (congr_of_unfocused hu).1
  cases hp : t.root.ring[n]? with
  | some p =>
    obtain ⟨_, e2, e3, e4⟩ := set_exact t hok n p hp
    have e5 : ∀ q, (t.setFocusIndex n).1.root.has (·.focused) q = true → q = p := by
      intro q hq
      rw [e4] at hq
      by_contra hne
      simp only [hne, decide_false, Bool.false_or, Bool.and_eq_true, Bool.not_eq_true'] at hq
      have := List.mem_of_getElem? (hs q hq.1)
      rw [← hr] at this
      rw [(mem_ring.1 this).2.1] at hq
      cases hq.2
    refine ⟨ok_of_focus hok e3 (fun q hq => Or.inl ?_), e3.trans hu, fun q hq => ?_⟩
    · rw [e5 q hq]; exact List.mem_of_getElem? hp
    · rw [e5 q hq, e2, ← hr, hp]
  | none =>
    have hlen : t.root.ring.length ≤ n := List.getElem?_eq_none_iff.1 hp
    obtain ⟨_, e3, e4, e5⟩ := set_out_of_range t hok n hlen
    by_cases hne : t.root.ring = []
    · have e6 : ∀ q, (t.setFocusIndex n).1.root.has (·.focused) q = false := by
        intro q
        rw [e5 hne q]
        cases hq : t.root.has (·.focused) q with
        | false => rfl
        | true =>
          have := hs q hq
          rw [← hr, hne] at this
          cases this
      exact ⟨ok_of_focus hok e3 (fun q hq => by rw [e6] at hq; cases hq), e3.trans hu,
        fun q hq => by rw [e6] at hq; cases hq⟩
    · rw [e4 hne]; exact ⟨hok, hu, hs⟩

/-- C68: from a tree without a focus, whatever the program does with the focus afterwards, at most one
widget has it: the one at the focus index. -/
theorem focus_history (t0 : WidgetTree) (hok : t0.root.Ok) (h0 : t0.root.focusedPaths = []) (ops : List FocusOp) :
    let t := ops.foldl FocusOp.run t0
    t.root.unfocused = t0.root.unfocused ∧
      (t.root.focusedPaths = [] ∨ ∃ p, t0.root.ring[t.index]? = some p ∧ t.root.focusedPaths = [p]) := by
  have key : ∀ (ops : List FocusOp) (t : WidgetTree), Single t0 t → Single t0 (ops.foldl FocusOp.run t) := by
    intro ops
    induction ops with
    | nil => intro t h; exact h
    | cons op ops ih =>
      intro t h
      apply ih
      rcases run_cases t op with e | ⟨n, e⟩ <;> rw [e]
      · exact h
      · exact single_set h n
  have hstart : Single t0 t0 := by
    refine ⟨hok, rfl, fun q hq => ?_⟩
    have : q ∈ t0.root.focusedPaths := by
      unfold focusedPaths
      rw [List.mem_filter, mem_paths]
      refine ⟨?_, hq⟩
      unfold has at hq
      cases hc : t0.root.at? q with
      | none => rw [hc] at hq; cases hq
      | some c => rfl
    rw [h0] at this
    cases this
  obtain ⟨hok', hu, hs⟩ := key ops t0 hstart
  refine ⟨hu, ?_⟩
  cases hf : (ops.foldl FocusOp.run t0).root.focusedPaths with
  | nil => exact Or.inl rfl
  | cons p ps =>
    refine Or.inr ⟨p, ?_, ?_⟩
    · have : p ∈ (ops.foldl FocusOp.run t0).root.focusedPaths := by rw [hf]; simp
      exact hs p (List.mem_filter.1 this).2
    · have hnd : (ops.foldl FocusOp.run t0).root.focusedPaths.Nodup := (paths_nodup _).filter _
      have hall : ∀ q ∈ (ops.foldl FocusOp.run t0).root.focusedPaths, q = p := by
        intro q hq
        have h1 := hs q (List.mem_filter.1 hq).2
        have h2 := hs p (List.mem_filter.1 (by rw [hf]; simp : p ∈ (ops.foldl FocusOp.run t0).root.focusedPaths)).2
        rw [h1] at h2
        exact Option.some.inj h2
      rw [hf] at hnd hall
      cases ps with
      | nil => rfl
      | cons q qs =>
        have := hall q (by simp)
        subst this
        simp at hnd

example : demo.focusedPaths = [] ∧
    ([FocusOp.set 2, .next, .next, .byId "b", .prev].foldl FocusOp.run ⟨demo, [], 0⟩).root.focusedPaths = [[1, 0]] := by
  decide +kernel

/-- C68 is false when widgets are hidden: the flag of a hidden widget is not cleared, so hiding the
focused button, moving the focus and showing the button again leaves two focused widgets. -/
theorem two_focused_counterexample :
    ∃ t : WidgetTree, t.root.Ok ∧ t.root.focusedPaths = [[0]] ∧
      let hide := fun (w : W) (v : Bool) => modifyAt (fun a => { a with visible := v }) w [0]
      let t1 := (({ t with root := hide t.root false } : WidgetTree).setFocusIndex 0).1
      (hide t1.root true).focusedPaths = [[0], [1, 0]] := by
  refine ⟨(({ root := demo } : WidgetTree).setFocusIndex 0).1, ?_, ?_, ?_⟩
  · refine (single_set (t0 := { root := demo }) ⟨demo_ok, rfl, ?_⟩ 0).1
    intro q hq
    have : q ∈ demo.focusedPaths := by
      refine List.mem_filter.2 ⟨(mem_paths _ _).2 ?_, hq⟩
      unfold has at hq
      cases hc : demo.at? q with
      | none => rw [hc] at hq; cases hq
      | some c => rfl
    rw [show demo.focusedPaths = [] by decide +kernel] at this
    cases this
  · decide +kernel
  · decide +kernel

/-! ### C69: the Tab cycle -/

/-- `k` times Tab. -/
def WidgetTree.nexts (t : WidgetTree) : Nat → WidgetTree
  | 0 => t
  | k + 1 => (t.nexts k).focusNext.1

theorem set_root (t : WidgetTree) (hok : t.root.Ok) (n : Nat) (hn : n < t.root.ring.length) :
    (t.setFocusIndex n).1.index = n ∧ (t.setFocusIndex n).2 = true ∧ (t.setFocusIndex n).1.root.Ok ∧
    (t.setFocusIndex n).1.root.unfocused = t.root.unfocused := by
  obtain ⟨e1, e2, e3, e4⟩ := set_exact t hok n _ (List.getElem?_eq_getElem hn)
  refine ⟨e2, e1, ok_of_focus hok e3 (fun q hq => ?_), e3⟩
  rw [e4] at hq
  simp only [Bool.or_eq_true, decide_eq_true_eq, Bool.and_eq_true] at hq
  rcases hq with h | h
  · left; rw [h]; exact List.getElem_mem hn
  · exact Or.inr h.1

theorem next_eq (t : WidgetTree) (hok : t.root.Ok) (h : 0 < t.root.ring.length) :
    t.focusNext = ((t.setFocusIndex ((t.index + 1) % t.root.ring.length)).1, some ((t.index + 1) % t.root.ring.length)) := by
  unfold WidgetTree.focusNext
  rw [count_eq _ hok, if_neg (by omega)]
  simp [(set_root t hok _ (Nat.mod_lt (t.index + 1) h)).2.1]

theorem prev_eq (t : WidgetTree) (hok : t.root.Ok) (h : t.index < t.root.ring.length) :
    t.focusPrevious = ((t.setFocusIndex ((t.index + t.root.ring.length - 1) % t.root.ring.length)).1,
      some ((t.index + t.root.ring.length - 1) % t.root.ring.length)) := by
  unfold WidgetTree.focusPrevious
  rw [count_eq _ hok, if_neg (by omega)]
  have e : (if t.index = 0 then t.root.ring.length - 1 else t.index - 1) =
      (t.index + t.root.ring.length - 1) % t.root.ring.length := by
    split
    · rename_i h0; rw [h0, Nat.zero_add, Nat.mod_eq_of_lt (by omega)]
    · rw [show t.index + t.root.ring.length - 1 = t.index - 1 + t.root.ring.length by omega,
        Nat.add_mod_right, Nat.mod_eq_of_lt (by omega)]
  dsimp only
  rw [e]
  simp [(set_root t hok _ (Nat.mod_lt (t.index + t.root.ring.length - 1) (by omega : 0 < t.root.ring.length))).2.1]

theorem nexts_state (t : WidgetTree) (hok : t.root.Ok) (h : t.index < t.root.ring.length) (k : Nat) :
    (t.nexts k).root.Ok ∧ (t.nexts k).root.unfocused = t.root.unfocused ∧
      (t.nexts k).index = (t.index + k) % t.root.ring.length := by
  induction k with
  | zero => exact ⟨hok, rfl, (Nat.mod_eq_of_lt h).symm⟩
  | succ k ih =>
    obtain ⟨i1, i2, i3⟩ := ih
    have hr := (congr_of_unfocused i2).1
    have hpos : 0 < (t.nexts k).root.ring.length := by rw [hr]; omega
    have s := set_root (t.nexts k) i1 _ (Nat.mod_lt ((t.nexts k).index + 1) hpos)
    rw [WidgetTree.nexts, next_eq _ i1 hpos]
    refine ⟨s.2.2.1, s.2.2.2.trans i2, ?_⟩
    rw [s.1, hr, i3, Nat.mod_add_mod, Nat.add_assoc]

/-- C69: the widgets that are focused after 1, 2, …, `ring.length` presses of Tab are the widgets of the
ring, each exactly once, in document order from the one behind the current one round to it. -/
theorem tab_cycle (t : WidgetTree) (hok : t.root.Ok) (h : t.index < t.root.ring.length) :
    (List.range t.root.ring.length).map (fun k => t.root.ring[(t.nexts (k + 1)).index]?) =
      (t.root.ring.rotate (t.index + 1)).map some ∧
    ∀ k p, t.root.ring[(t.nexts (k + 1)).index]? = some p → ∀ q, t.root.reach q = true →
      ((t.nexts (k + 1)).root.has (·.focused) q = true ↔ q = p) := by
  constructor
  · apply List.ext_getElem?
    intro k
    rw [List.getElem?_map, List.getElem?_map]
    by_cases hk : k < t.root.ring.length
    · rw [List.getElem?_range hk, List.getElem?_rotate hk, Option.map_some,
        (nexts_state t hok h (k + 1)).2.2,
        show k + (t.index + 1) = t.index + (k + 1) by omega]
      rw [List.getElem?_eq_getElem (Nat.mod_lt _ (by omega))]
      rfl
    · rw [List.getElem?_eq_none (by simpa using hk), List.getElem?_eq_none (by simpa using hk)]
      rfl
  · intro k p hp q hq
    obtain ⟨i1, i2, i3⟩ := nexts_state t hok h k
    have hc := congr_of_unfocused i2
    have hpos : 0 < (t.nexts k).root.ring.length := by rw [hc.1]; omega
    have s := set_root (t.nexts k) i1 _ (Nat.mod_lt ((t.nexts k).index + 1) hpos)
    rw [WidgetTree.nexts, next_eq _ i1 hpos] at hp ⊢
    dsimp only at hp ⊢
    rw [s.1, ← hc.1] at hp
    rw [(set_exact _ i1 _ p hp).2.2.2 q, hc.2.2.1 q, hq]
    simp

example : demo.Ok ∧ ({ root := demo, index := 1 } : WidgetTree).index < demo.ring.length ∧
    demo.ring.rotate 2 = [[2], [0], [1, 0]] := ⟨demo_ok, by decide +kernel, by decide +kernel⟩

/-- C69: Shift+Tab undoes Tab and Tab undoes Shift+Tab. -/
theorem tab_back (t : WidgetTree) (hok : t.root.Ok) (h : t.index < t.root.ring.length) :
    t.focusNext.1.focusPrevious.1.index = t.index ∧ t.focusNext.1.focusPrevious.2 = some t.index ∧
    t.focusPrevious.1.focusNext.1.index = t.index ∧ t.focusPrevious.1.focusNext.2 = some t.index := by
  have hpos : 0 < t.root.ring.length := by omega
  have ha := set_root t hok _ (Nat.mod_lt (t.index + 1) hpos)
  have hb := set_root t hok _ (Nat.mod_lt (t.index + t.root.ring.length - 1) hpos)
  have ra := (congr_of_unfocused ha.2.2.2).1
  have rb := (congr_of_unfocused hb.2.2.2).1
  have m1 : ((t.index + 1) % t.root.ring.length + t.root.ring.length - 1) % t.root.ring.length = t.index := by
    by_cases hl : t.index + 1 < t.root.ring.length
    · rw [Nat.mod_eq_of_lt hl, show t.index + 1 + t.root.ring.length - 1 = t.index + t.root.ring.length by omega,
        Nat.add_mod_right, Nat.mod_eq_of_lt h]
    · rw [show t.index + 1 = t.root.ring.length by omega, Nat.mod_self, Nat.zero_add,
        Nat.mod_eq_of_lt (by omega)]
      omega
  have m2 : ((t.index + t.root.ring.length - 1) % t.root.ring.length + 1) % t.root.ring.length = t.index := by
    rw [Nat.mod_add_mod, show t.index + t.root.ring.length - 1 + 1 = t.index + t.root.ring.length by omega,
      Nat.add_mod_right, Nat.mod_eq_of_lt h]
  rw [next_eq t hok hpos, prev_eq t hok h]
  have hp := prev_eq _ ha.2.2.1 (by rw [ha.1, ra]; exact Nat.mod_lt _ hpos)
  have hn := next_eq _ hb.2.2.1 (by rw [rb]; exact hpos)
  dsimp only
  rw [ha.1, ra, m1] at hp
  rw [hb.1, rb, m2] at hn
  rw [hp, hn]
  have z1 := set_root _ ha.2.2.1 t.index (by rw [ra]; exact h)
  have z2 := set_root _ hb.2.2.1 t.index (by rw [rb]; exact h)
  exact ⟨z1.1, rfl, z2.1, rfl⟩

example : (({ root := demo, index := 2 } : WidgetTree).focusNext).2 = some 0 ∧
    (({ root := demo, index := 0 } : WidgetTree).focusPrevious).2 = some 2 := by decide +kernel

/-! ### C70: keys go to the focused widget -/

theorem path_of_ring (w : W) (h : w.NoHiddenBefore) (n : Nat) (p : List Nat) (hp : w.ring[n]? = some p) :
    (w.findFocusPath n).1 = some p := by
  refine (findFocusPath_spec w).1 n p ?_
  refine filter_prefix (P := fun p => w.reach p && w.has (·.focusable) p) w.paths (paths_sorted w) ?_ n hp
  intro q hq hle
  cases hf : w.has (·.focusable) q with
  | false => simp
  | true =>
    have hmem := List.mem_of_getElem? hp
    rcases hle with hlt | he
    · rw [h p hmem q hq hlt hf]; rfl
    · rw [he, (mem_ring.1 hmem).2.1]; rfl

theorem nohidden_congr {w w' : W} (e : w'.unfocused = w.unfocused) (h : w.NoHiddenBefore) : w'.NoHiddenBefore := by
  obtain ⟨c1, c2, c3, _, c5⟩ := congr_of_unfocused e
  intro p hp q hq hlt hf
  rw [c1] at hp
  rw [c2] at hq
  rw [c5] at hf
  rw [c3]
  exact h p hp q hq hlt hf

/-- The cached path is empty or leads to the widget at the focus index. -/
def Tracks (t : WidgetTree) : Prop := t.path = [] ∨ t.root.ring[t.index]? = some t.path

theorem tracks_set {t : WidgetTree} (hok : t.root.Ok) (hh : t.root.NoHiddenBefore) (ht : Tracks t) (n : Nat)
    (p : List Nat) (hp : t.root.ring[n]? = some p) : (t.setFocusIndex n).1.path = p := by
  have hlt : n < t.root.ring.length := by
    by_contra h
    rw [List.getElem?_eq_none (by omega)] at hp
    cases hp
  have s := set_root t hok n hlt
  have e : (t.setFocusIndex n).1 = WidgetTree.updateFocus { t with root := (t.setFocusIndex n).1.root } n := by
    have h2 := s.2.1
    unfold WidgetTree.setFocusIndex at h2 ⊢
    rw [count_eq _ hok, if_neg (by omega), if_neg (by omega)] at h2 ⊢
    dsimp only at h2 ⊢
    cases hr : (t.root.clearFocus.focusNth n).2 with
    | false => rw [hr] at h2; simp at h2
    | true =>
      simp only [if_true]
      unfold WidgetTree.updateFocus
      dsimp only
      split <;> rfl
  rw [e]
  unfold WidgetTree.updateFocus
  dsimp only
  have hring := (congr_of_unfocused s.2.2.2).1
  split
  · rename_i h
    rcases ht with h1 | h1
    · exact absurd h1 h.2
    · rw [← h.1, hp] at h1
      exact (Option.some.inj h1).symm
  · dsimp only
    rw [path_of_ring _ (nohidden_congr s.2.2.2 hh) n p (by rw [hring]; exact hp)]
    rfl

/-- C70, the part that holds: if no focusable widget is hidden in front of a reachable one, then
whatever the program does with the focus, a focused widget is the one that `dispatch_key` reaches.
Missing: trees with hidden focusable widgets (`hidden_gets_keys_counterexample`), and widgets that are
shown, hidden or disabled in between (`stale_path_counterexample`). -/
theorem keys_reach_focus_partial (t0 : WidgetTree) (hok : t0.root.Ok) (h0 : t0.root.focusedPaths = [])
    (hpath : t0.path = []) (hh : t0.root.NoHiddenBefore) (ops : List FocusOp) :
    let t := ops.foldl FocusOp.run t0
    ∀ p ∈ t.root.focusedPaths, t.path = p ∧ t.target.any (·.attrs.focused) = true := by
  -- the invariant: `Single`, `Tracks`, and a focused widget is at the cached path
  have key : ∀ (ops : List FocusOp) (t : WidgetTree),
      (Single t0 t ∧ Tracks t ∧ ∀ q, t.root.has (·.focused) q = true → t.path = q) →
      (Single t0 (ops.foldl FocusOp.run t) ∧ Tracks (ops.foldl FocusOp.run t) ∧
        ∀ q, (ops.foldl FocusOp.run t).root.has (·.focused) q = true → (ops.foldl FocusOp.run t).path = q) := by
    intro ops
    induction ops with
    | nil => intro t h; exact h
    | cons op ops ih =>
      intro t h
      apply ih
      rcases run_cases t op with e | ⟨n, e⟩ <;> rw [e]
      · exact h
      · obtain ⟨h1, h2, h3⟩ := h
        have hs := single_set h1 n
        have hh' : t.root.NoHiddenBefore := nohidden_congr h1.2.1 hh
        cases hp : t.root.ring[n]? with
        | some p =>
          have hpth := tracks_set h1.1 hh' h2 n p hp
          have hx := set_exact t h1.1 n p hp
          have hring := (congr_of_unfocused hx.2.2.1).1
          refine ⟨hs, Or.inr ?_, fun q hq => ?_⟩
          · rw [hring, hx.2.1, hpth, hp]
          · have e1 := hs.2.2 q hq
            rw [hx.2.1, ← (congr_of_unfocused h1.2.1).1, hp] at e1
            rw [hpth]
            exact Option.some.inj e1
        | none =>
          have hlen : t.root.ring.length ≤ n := List.getElem?_eq_none_iff.1 hp
          by_cases hne : t.root.ring = []
          · have hpe : (t.setFocusIndex n).1.path = [] := by
              unfold WidgetTree.setFocusIndex
              rw [count_eq _ h1.1, hne]
              rfl
            refine ⟨hs, Or.inl hpe, fun q hq => ?_⟩
            have := hs.2.2 q hq
            rw [← (congr_of_unfocused h1.2.1).1, hne] at this
            cases this
          · rw [(set_out_of_range t h1.1 n hlen).2.2.1 hne]
            exact ⟨h1, h2, h3⟩
  have hno : ∀ q, t0.root.has (·.focused) q = true → False := by
    intro q hq
    have : q ∈ t0.root.focusedPaths := by
      refine List.mem_filter.2 ⟨(mem_paths _ _).2 ?_, hq⟩
      unfold has at hq
      cases hc : t0.root.at? q with
      | none => rw [hc] at hq; cases hq
      | some c => rfl
    rw [h0] at this
    cases this
  obtain ⟨_, _, k3⟩ := key ops t0 ⟨⟨hok, rfl, fun q hq => (hno q hq).elim⟩, Or.inl hpath, fun q hq => (hno q hq).elim⟩
  intro t p hp
  have h1 : t.root.has (·.focused) p = true := (List.mem_filter.1 hp).2
  have h2 : t.path = p := k3 p h1
  refine ⟨h2, ?_⟩
  unfold WidgetTree.target
  rw [h2]
  exact h1

/-- A tree with no hidden focusable widget meets the hypothesis. -/
theorem demo_nohidden : demo.NoHiddenBefore := by
  intro p _ q hq _ _
  have : ∀ q ∈ demo.paths, demo.reach q = true := by decide +kernel
  exact this q hq

example : demo.Ok ∧ demo.focusedPaths = [] ∧ demo.NoHiddenBefore ∧
    ([FocusOp.set 0, .next, .byId "c"].foldl FocusOp.run ⟨demo, [], 0⟩).path = [1, 0] :=
  ⟨demo_ok, by decide +kernel, demo_nohidden, by decide +kernel⟩

/-- C70: the widget that is asked for gets the keys, from any state whose cached path is in step. -/
theorem set_target_partial (t : WidgetTree) (hok : t.root.Ok) (hh : t.root.NoHiddenBefore) (ht : Tracks t) (n : Nat)
    (p : List Nat) (hp : t.root.ring[n]? = some p) :
    (t.setFocusIndex n).1.path = p ∧ (t.setFocusIndex n).1.target.any (·.attrs.focused) = true := by
  have h := tracks_set hok hh ht n p hp
  refine ⟨h, ?_⟩
  unfold WidgetTree.target
  rw [h]
  have := (set_exact t hok n p hp).2.2.2 p
  simpa [has] using this

example : Tracks { root := demo, path := [2], index := 2 } ∧ demo.ring[0]? = some [0] :=
  ⟨Or.inr (by decide +kernel), by decide +kernel⟩

/-- C70 is false when a focusable widget is hidden in front: the focus goes to the second button, the
keys go to the hidden first one. -/
theorem hidden_gets_keys_counterexample :
    ∃ (root : W), root.Ok ∧
      let t := ((⟨root, [], 0⟩ : WidgetTree).setFocusIndex 0).1
      t.root.focusedPaths = [[1]] ∧ t.path = [0] ∧ t.target.any (·.attrs.focused) = false := by
  refine ⟨.node .screen { typeName := "Screen" } [button "a" false, button "b"], ?_, ?_⟩
  · refine box_ok _ _ _ rfl rfl (fun h => by cases h) ?_
    intro c hc
    simp only [List.mem_cons, List.not_mem_nil, or_false] at hc
    rcases hc with rfl | rfl <;> exact button_ok _ _
  · decide +kernel

/-- C70 is false when the focused widget is disabled: the test before the next frame moves the focus to
index 0, which is the index already recorded, so the cached path stays and the keys still go to the
disabled widget. -/
theorem stale_path_counterexample :
    ∃ (root : W), root.Ok ∧
      let t := ((⟨root, [], 0⟩ : WidgetTree).setFocusIndex 0).1
      let t1 : WidgetTree := { t with root := modifyAt (fun a => { a with focusable := false, disabled := true }) t.root [0] }
      t1.fallback.root.focusedPaths = [[1]] ∧ t1.fallback.path = [0] ∧
        t1.fallback.target.any (·.attrs.disabled) = true := by
  refine ⟨.node .screen { typeName := "Screen" } [button "a", button "b"], ?_, ?_⟩
  · refine box_ok _ _ _ rfl rfl (fun h => by cases h) ?_
    intro c hc
    simp only [List.mem_cons, List.not_mem_nil, or_false] at hc
    rcases hc with rfl | rfl <;> exact button_ok _ _
  · decide +kernel

/-! ### C71: focus by id -/

/-- C71: an id that no visible focusable widget has changes nothing. -/
theorem byId_none (t : WidgetTree) (id : String)
    (h : ∀ p ∈ t.root.paths, t.root.shown p = true → t.root.has (·.focusable) p = true →
      t.root.has (·.id = some id) p = false) :
    t.focusById id = (t, false) := by
  have hs := findFocusIndexById_spec t.root id 0
  have : t.root.shownRing.findIdx? (t.root.has (·.id = some id)) = none := by
    rw [List.findIdx?_eq_none_iff]
    intro p hp
    have hm := List.mem_filter.1 hp
    rw [Bool.and_eq_true] at hm
    exact h p hm.1 hm.2.1 hm.2.2
  rw [this] at hs
  dsimp only at hs
  unfold WidgetTree.focusById
  rw [hs]

example : ∀ p ∈ demo.paths, demo.shown p = true → demo.has (·.focusable) p = true →
    demo.has (·.id = some "l") p = false := by decide +kernel

/-- C71, the part that holds: `focus_by_id` gives the focus to the first visible focusable widget with
the id, if up to there the widgets that can be reached by the focus are the visible ones.  Missing:
widgets in front that are not displayed inside `Center` or `Middle`
(`byId_center_counterexample`). -/
theorem byId_focuses_partial (t : WidgetTree) (hok : t.root.Ok) (id : String) (p : List Nat)
    (hp : p ∈ t.root.paths) (h1 : t.root.shown p = true) (h2 : t.root.has (·.focusable) p = true)
    (h3 : t.root.has (·.id = some id) p = true)
    (hfirst : ∀ q ∈ t.root.paths, q < p → t.root.shown q = true → t.root.has (·.focusable) q = true →
      t.root.has (·.id = some id) q = false)
    (hag : ∀ q ∈ t.root.paths, (q < p ∨ q = p) → t.root.has (·.focusable) q = true → t.root.shown q = t.root.reach q) :
    (t.focusById id).2 = true ∧ (t.focusById id).1.root.unfocused = t.root.unfocused ∧
    ∀ q, (t.focusById id).1.root.has (·.focused) q =
      (decide (q = p) || (t.root.has (·.focused) q && !t.root.reach q)) := by
  have hs := findFocusIndexById_spec t.root id 0
  have hmem : p ∈ t.root.shownRing := List.mem_filter.2 ⟨hp, by rw [h1, h2]; rfl⟩
  have hsorted : t.root.shownRing.Pairwise (· < ·) := (paths_sorted t.root).filter _
  cases hk : t.root.shownRing.findIdx? (t.root.has (·.id = some id)) with
  | none =>
    rw [List.findIdx?_eq_none_iff] at hk
    rw [hk p hmem] at h3
    cases h3
  | some k =>
    rw [hk] at hs
    dsimp only at hs
    obtain ⟨hlt, hidk, hbefore⟩ := List.findIdx?_eq_some_iff_getElem.1 hk
    have hpk : t.root.shownRing[k] = p := by
      obtain ⟨j, hj, hjp⟩ := List.getElem_of_mem hmem
      rcases Nat.lt_trichotomy j k with hjk | hjk | hjk
      · exfalso
        have := hbefore j hjk
        rw [hjp, h3] at this
        exact this rfl
      · subst hjk; exact hjp
      · exfalso
        have hlt2 : t.root.shownRing[k] < t.root.shownRing[j] := List.pairwise_iff_getElem.1 hsorted k j hlt hj hjk
        have hm := List.mem_filter.1 (List.getElem_mem hlt)
        rw [Bool.and_eq_true] at hm
        rw [hjp] at hlt2
        rw [hfirst _ hm.1 hlt2 hm.2.1 hm.2.2] at hidk
        cases hidk
    have hring : t.root.ring[k]? = some p := by
      refine filter_prefix (P := fun p => t.root.shown p && t.root.has (·.focusable) p) t.root.paths
        (paths_sorted t.root) ?_ k ?_
      · intro q hq hle
        cases hf : t.root.has (·.focusable) q with
        | false => simp
        | true => rw [hag q hq hle hf]
      · show t.root.shownRing[k]? = some p
        rw [List.getElem?_eq_getElem hlt, hpk]
    have hx := set_exact t hok k p hring
    have he : t.focusById id = t.setFocusIndex k := by
      unfold WidgetTree.focusById
      rw [hs, Nat.zero_add]
    rw [he]
    exact ⟨hx.1, hx.2.2.1, hx.2.2.2⟩

example : ∀ q ∈ demo.paths, (q < [2] ∨ q = [2]) → demo.has (·.focusable) q = true → demo.shown q = demo.reach q := by
  decide +kernel

/-- C71 is false behind a `Center` whose child is not displayed: the focus chain counts that child, the
search by id does not, so another widget is focused. -/
theorem byId_center_counterexample :
    ∃ (root : W), root.Ok ∧
      let t := ((⟨root, [], 0⟩ : WidgetTree).focusById "b")
      t.2 = true ∧ t.1.root.focusedPaths = [[0, 0]] ∧ t.1.root.has (·.id = some "b") [0, 0] = false := by
  refine ⟨.node .screen { typeName := "Screen" }
    [.node .wrapper { typeName := "Center" }
      [.node .press { id := some "a", typeName := "Button", focusable := true, displayed := false } []],
     button "b"], ?_, ?_⟩
  · refine box_ok _ _ _ rfl rfl (fun h => by cases h) ?_
    intro c hc
    simp only [List.mem_cons, List.not_mem_nil, or_false] at hc
    rcases hc with rfl | rfl
    · refine box_ok _ _ _ rfl rfl (fun _ => rfl) ?_
      intro c hc
      simp only [List.mem_cons, List.not_mem_nil, or_false] at hc
      subst hc
      intro p c h
      cases p with
      | nil => cases h; refine ⟨fun _ => rfl, fun _ => rfl, fun h => ?_⟩; cases h
      | cons i p => simp [at?, exposed] at h
    · exact button_ok _ _
  · decide +kernel

end Textual.Tree
