import Verif.Model.Tabs
import Verif.Props.Tree
import Mathlib.Data.List.Basic

/-!
# Keyboard use of a tree of widgets (C197)
-/

namespace Textual.Tabs

open Tree (WidgetTree)

variable {τ μ : Type}

/-- How a key moves the focus. -/
def move : Binding.Key → Int
  | .tab => 1
  | .backTab => -1
  | _ => 0

def moves (es : List Keys.Event) : Int := (es.map fun e => move e.code).sum

/-- What is done with a key for the widget at a path: the widget, the program with its message, the program with the key,
the actions. -/
def handled (a : App τ μ) (p : List Nat) (k : Binding.Key) (s : τ) : τ :=
  let r := a.on p k s
  let s := match r.2 with
    | some m => a.message m r.1
    | none => r.1
  let s := a.programKey k s
  (a.actions s).2.foldl (fun s n => a.action n s) (a.actions s).1

/-- The focus is on a widget of the ring, and the cached path leads to it. -/
structure Ready (t0 t : WidgetTree) : Prop where
  ok : t.root.Ok
  same : t.root.unfocused = t0.root.unfocused
  here : t.root.ring[t.index]? = some t.path

theorem ready_lt {t0 t : WidgetTree} (h : Ready t0 t) : t.index < t.root.ring.length := by
  have := h.here
  by_contra hn
  rw [List.getElem?_eq_none (by omega)] at this
  cases this

theorem ready_set {t0 t : WidgetTree} (hh : t0.root.NoHiddenBefore) (h : Ready t0 t) (n : Nat)
    (hn : n < t.root.ring.length) : Ready t0 (t.setFocusIndex n).1 ∧ (t.setFocusIndex n).1.index = n := by
  have s := Tree.set_root t h.ok n hn
  refine ⟨⟨s.2.2.1, s.2.2.2.trans h.same, ?_⟩, s.1⟩
  rw [(Tree.congr_of_unfocused s.2.2.2).1, s.1,
    Tree.tracks_set h.ok (Tree.nohidden_congr h.same hh) (.inr h.here) n _ (List.getElem?_eq_getElem hn)]
  exact List.getElem?_eq_getElem hn

theorem ready_target {t0 t : WidgetTree} (h : Ready t0 t) :
    ∃ w, t.target = some w ∧ w.attrs.focusable = true := by
  have hm := Tree.mem_ring.1 (List.mem_of_getElem? h.here)
  obtain ⟨w, hw⟩ := Option.isSome_iff_exists.1 hm.1
  refine ⟨w, hw, ?_⟩
  have := hm.2.2
  unfold Tree.W.has at this
  rw [hw] at this
  exact this

theorem ready_fallback {t0 t : WidgetTree} (h : Ready t0 t) : t.fallback = t := by
  obtain ⟨w, hw, hf⟩ := ready_target h
  simp only [WidgetTree.fallback, hw, hf, if_true]

/-- The tree after a key. -/
def shifted (k : Binding.Key) (t : WidgetTree) : WidgetTree :=
  match k with
  | .tab => t.focusNext.1
  | .backTab => t.focusPrevious.1
  | _ => t

theorem emod_nat (i n : Nat) (h : i < n) (d : Int) (j : Nat) (hj : (j : Int) = (i + d) % n) : j < n := by
  have := Int.emod_lt_of_pos ((i : Int) + d) (b := n) (by omega)
  omega

theorem ready_shifted {t0 t : WidgetTree} (hh : t0.root.NoHiddenBefore) (h : Ready t0 t) (k : Binding.Key) :
    Ready t0 (shifted k t) ∧ ((shifted k t).index : Int) = (t.index + move k) % t.root.ring.length := by
  have hlt := ready_lt h
  have stay : ((t.index : Nat) : Int) = (t.index + 0) % t.root.ring.length := by
    rw [Int.add_zero, Int.emod_eq_of_lt (by omega) (by omega)]
  unfold shifted
  split
  · rw [Tree.next_eq t h.ok (by omega)]
    obtain ⟨r1, r2⟩ := ready_set hh h ((t.index + 1) % t.root.ring.length) (Nat.mod_lt _ (by omega))
    refine ⟨r1, ?_⟩
    dsimp only
    rw [r2]
    simp [move]
  · rw [Tree.prev_eq t h.ok hlt]
    obtain ⟨r1, r2⟩ := ready_set hh h ((t.index + t.root.ring.length - 1) % t.root.ring.length) (Nat.mod_lt _ (by omega))
    refine ⟨r1, ?_⟩
    dsimp only
    rw [r2]
    simp only [move, Int.natCast_emod]
    rw [show ((t.index + t.root.ring.length - 1 : Nat) : Int) = t.index + -1 + t.root.ring.length by omega,
      Int.add_emod_right]
  · rename_i h1 h2
    refine ⟨h, ?_⟩
    have : move k = 0 := by
      unfold move
      split
      · exact absurd rfl h1
      · exact absurd rfl h2
      · rfl
    rw [this]
    exact stay

theorem moveFocus_ready {t0 t : WidgetTree} (h : Ready t0 t) (a : App τ μ) (sc : Binding.Event → Bool) (k : Binding.Key)
    (s : τ) : (Keys.moveFocus (prog a sc) false k (t, s)).1 = (shifted k t, s) := by
  have hlt := ready_lt h
  unfold Keys.moveFocus shifted
  split
  · simp only [prog, Tree.next_eq t h.ok (by omega)]
    rfl
  · simp only [prog, Tree.prev_eq t h.ok hlt]
    rfl
  · rename_i h1 h2
    split
    · exact absurd rfl h1
    · exact absurd rfl h2
    · rfl

/-- A turn of the loop. -/
theorem turn_ready {t0 t : WidgetTree} (hh : t0.root.NoHiddenBefore) (h : Ready t0 t) (a : App τ μ)
    (sc : Binding.Event → Bool) (e : Keys.Event) (hs : sc ⟨e.code, e.mods⟩ = false) (s : τ) :
    turn a sc (t, s) e = (shifted e.code t, handled a (shifted e.code t).path e.code s) := by
  have hr := (ready_shifted hh h e.code).1
  obtain ⟨w, hw, -⟩ := ready_target hr
  have hm := moveFocus_ready h a sc e.code s
  unfold turn Keys.key
  rw [ready_fallback h, show (prog a sc).shortcut = sc from rfl, hs]
  simp only [Bool.false_eq_true, if_false]
  rw [show (prog a sc).paletteOpen = fun _ => false from rfl]
  dsimp only
  rw [hm]
  have hf : ∀ (l : List String) (t : WidgetTree) (s : τ),
      l.foldl (fun s n => (prog a sc).action n s) (t, s) = (t, l.foldl (fun s n => a.action n s) s) := by
    intro l
    induction l with
    | nil => intro t s; rfl
    | cons n l ih => intro t s; exact ih t (a.action n s)
  unfold Keys.toWidget Keys.toProgram Keys.toActions handled
  simp only [show (prog a sc).widgetKey e.code (shifted e.code t, s) =
    ((shifted e.code t, (a.on (shifted e.code t).path e.code s).1), (a.on (shifted e.code t).path e.code s).2) from by
      simp only [prog, hw]]
  rcases a.on (shifted e.code t).path e.code s with ⟨s1, _ | m⟩
  · exact hf _ _ _
  · exact hf _ _ _

/-- **C197** (partial: no focusable widget is hidden in front of another, as in C70; the tree does not change). Whatever keys
are pressed, each goes to one widget of the ring: the one as many places behind the first as Tab was pressed more often than
Shift+Tab, that key included, round the ring. The program goes on with what that widget makes of the key, and the focus is
there. -/
theorem keys_partial (a : App τ μ) (sc : Binding.Event → Bool) (t : WidgetTree) (s : τ) (hok : t.root.Ok)
    (hh : t.root.NoHiddenBefore) (ht : t.root.ring[t.index]? = some t.path) (es : List Keys.Event) (e : Keys.Event)
    (hs : ∀ e' ∈ es ++ [e], sc ⟨e'.code, e'.mods⟩ = false) :
    ∃ p, t.root.ring[((t.index + moves (es ++ [e])) % t.root.ring.length).toNat]? = some p ∧
      (run a sc (es ++ [e]) (t, s)).1.path = p ∧
      (run a sc (es ++ [e]) (t, s)).1.root.has (·.focusable) p = true ∧
      (run a sc (es ++ [e]) (t, s)).2 = handled a p e.code (run a sc es (t, s)).2 := by
  have h0 : Ready t t := ⟨hok, rfl, ht⟩
  have key : ∀ es : List Keys.Event, (∀ e' ∈ es, sc ⟨e'.code, e'.mods⟩ = false) →
      Ready t (run a sc es (t, s)).1 ∧
      ((run a sc es (t, s)).1.index : Int) = (t.index + moves es) % t.root.ring.length := by
    intro es
    induction es using List.reverseRecOn with
    | nil =>
      intro _
      refine ⟨h0, ?_⟩
      have := ready_lt h0
      simp only [run, List.foldl_nil, moves, List.map_nil, List.sum_nil, Int.add_zero]
      rw [Int.emod_eq_of_lt (by omega) (by omega)]
    | append_singleton es e ih =>
      intro hs
      obtain ⟨i1, i2⟩ := ih fun e' he => hs e' (by simp [he])
      have e1 : run a sc (es ++ [e]) (t, s) = turn a sc (run a sc es (t, s)) e := by simp [run, List.foldl_append]
      rw [e1, show run a sc es (t, s) = ((run a sc es (t, s)).1, (run a sc es (t, s)).2) from rfl,
        turn_ready hh i1 a sc e (hs e (by simp))]
      obtain ⟨r1, r2⟩ := ready_shifted hh i1 e.code
      refine ⟨r1, ?_⟩
      dsimp only
      rw [r2, i2, (Tree.congr_of_unfocused i1.same).1, Int.emod_add_emod, Int.add_assoc]
      simp [moves]
  obtain ⟨i1, -⟩ := key es fun e' he => hs e' (by simp [he])
  obtain ⟨j1, j2⟩ := key (es ++ [e]) hs
  have e1 : run a sc (es ++ [e]) (t, s) = turn a sc (run a sc es (t, s)) e := by simp [run, List.foldl_append]
  have e2 := turn_ready hh i1 a sc e (hs e (by simp)) (run a sc es (t, s)).2
  have hj := j1.here
  refine ⟨_, ?_, rfl, (Tree.mem_ring.1 (List.mem_of_getElem? hj)).2.2, ?_⟩
  · rw [← j2, Int.toNat_natCast, ← (Tree.congr_of_unfocused j1.same).1]
    exact hj
  · rw [e1]
    rw [show run a sc es (t, s) = ((run a sc es (t, s)).1, (run a sc es (t, s)).2) from rfl, e2]

theorem quiet (p : List Nat) (k : Binding.Key) (hk : k = .tab ∨ k = .backTab)
    (s : (List Nat → Press.Button) × List (List Nat)) : handled buttons p k s = s := by
  have hb : ∀ b : Press.Button, b.onKey (pressKey k) = (false, b) := by
    intro b
    rcases hk with rfl | rfl <;> simp [pressKey, Press.Button.onKey]
  have : (fun q => if q = p then s.1 p else s.1 q) = s.1 := by
    funext q
    by_cases h : q = p <;> simp [h]
  simp only [handled, buttons, hb]
  simp only [Bool.false_eq_true, if_false, this]
  rfl

/-- **C197** (partial, as above). Moving the focus with Tab and Shift+Tab and then pressing Enter or Space makes the program
handle the message of the button the focus is on, once, and no other; if that button is not disabled and has a message. -/
theorem enter_partial (sc : Binding.Event → Bool) (t : WidgetTree) (bs : List Nat → Press.Button) (hok : t.root.Ok)
    (hh : t.root.NoHiddenBefore) (ht : t.root.ring[t.index]? = some t.path) (es : List Keys.Event) (e : Keys.Event)
    (hs : ∀ e' ∈ es ++ [e], sc ⟨e'.code, e'.mods⟩ = false) (hes : ∀ e' ∈ es, e'.code = .tab ∨ e'.code = .backTab)
    (he : e.code = .enter ∨ e.code = .char ' ') :
    ∃ p, t.root.ring[((t.index + moves es) % t.root.ring.length).toNat]? = some p ∧
      (run buttons sc es (t, bs, [])).2 = (bs, []) ∧
      (run buttons sc (es ++ [e]) (t, bs, [])).2.2 =
        if (bs p).disabled = false ∧ (bs p).hasAction = false ∧ (bs p).hasPress = true then [p] else [] := by
  have still : ∀ es : List Keys.Event, (∀ e' ∈ es, sc ⟨e'.code, e'.mods⟩ = false) →
      (∀ e' ∈ es, e'.code = .tab ∨ e'.code = .backTab) → (run buttons sc es (t, bs, [])).2 = (bs, []) := by
    intro es
    induction es using List.reverseRecOn with
    | nil => intro _ _; rfl
    | append_singleton es e ih =>
      intro hs hes
      obtain ⟨p, -, -, -, h⟩ := keys_partial buttons sc t (bs, []) hok hh ht es e hs
      rw [h, ih (fun e' h => hs e' (by simp [h])) (fun e' h => hes e' (by simp [h])), quiet p e.code (hes e (by simp))]
  have h1 := still es (fun e' h => hs e' (by simp [h])) hes
  obtain ⟨p, hp, -, -, h⟩ := keys_partial buttons sc t (bs, []) hok hh ht es e hs
  have hm : moves (es ++ [e]) = moves es := by
    rcases he with he | he <;> simp [moves, move, he]
  rw [hm] at hp
  refine ⟨p, hp, h1, ?_⟩
  rw [h, h1]
  have hk : pressKey e.code = .enter ∨ pressKey e.code = .space := by
    rcases he with he | he <;> rw [he]
    · exact .inl rfl
    · exact .inr rfl
  have hb : ((bs p).onKey (pressKey e.code)).1 =
      decide ((bs p).disabled = false ∧ (bs p).hasAction = false ∧ (bs p).hasPress = true) := by
    rcases hk with hk | hk <;> rw [hk] <;> rcases bs p with ⟨_, _, _, _ | _, _ | _, _ | _, _, _⟩ <;> rfl
  simp only [handled, buttons, hb, List.foldl_nil]
  by_cases hc : (bs p).disabled = false ∧ (bs p).hasAction = false ∧ (bs p).hasPress = true
  · rw [if_pos hc]
    simp only [hc, and_self, decide_true, if_true]
    rfl
  · rw [if_neg hc]
    simp only [hc, decide_false, Bool.false_eq_true, if_false]

theorem tabs_moves (k : Nat) : moves (List.replicate k { code := .tab }) = k := by
  induction k with
  | zero => rfl
  | succ k ih =>
    rw [List.replicate_succ]
    simp only [moves, List.map_cons, List.sum_cons] at ih ⊢
    rw [ih]
    simp only [move]
    omega

/-- **C197** (partial, as above). Every enabled button that Tab visits can be used with the keyboard: some number of presses
of Tab, fewer than there are widgets to visit, and then Enter make the program handle its message and nothing else. -/
theorem usable_partial (sc : Binding.Event → Bool) (t : WidgetTree) (bs : List Nat → Press.Button) (hok : t.root.Ok)
    (hh : t.root.NoHiddenBefore) (ht : t.root.ring[t.index]? = some t.path) (p : List Nat) (hp : p ∈ t.root.ring)
    (hs : ∀ k, k = .tab ∨ k = .enter → sc ⟨k, {}⟩ = false)
    (hb : (bs p).disabled = false ∧ (bs p).hasAction = false ∧ (bs p).hasPress = true) :
    ∃ k < t.root.ring.length,
      (run buttons sc (List.replicate k { code := .tab } ++ [{ code := .enter }]) (t, bs, [])).2.2 = [p] := by
  obtain ⟨j, hj, rfl⟩ := List.getElem_of_mem hp
  have hlt := ready_lt ⟨hok, rfl, ht⟩
  refine ⟨(j + t.root.ring.length - t.index) % t.root.ring.length, Nat.mod_lt _ (by omega), ?_⟩
  obtain ⟨q, hq, -, h⟩ := enter_partial sc t bs hok hh ht
    (List.replicate ((j + t.root.ring.length - t.index) % t.root.ring.length) { code := .tab }) { code := .enter }
    (by
      intro e' h
      rcases List.mem_append.1 h with h | h
      · rw [(List.mem_replicate.1 h).2]; exact hs _ (.inl rfl)
      · rw [List.mem_singleton.1 h]; exact hs _ (.inr rfl))
    (by
      intro e' h
      rw [(List.mem_replicate.1 h).2]; exact .inl rfl)
    (.inl rfl)
  rw [tabs_moves] at hq
  have hpos : ((t.index : Int) + ((j + t.root.ring.length - t.index) % t.root.ring.length : Nat)) % t.root.ring.length = j := by
    rw [Int.natCast_emod, Int.add_emod_emod,
      show (t.index : Int) + ((j + t.root.ring.length - t.index : Nat) : Int) = j + t.root.ring.length by omega,
      Int.add_emod_right, Int.emod_eq_of_lt (by omega) (by omega)]
  rw [hpos, Int.toNat_natCast, List.getElem?_eq_getElem hj] at hq
  cases hq
  rw [h, if_pos hb]

/-- The demonstration tree of C68, with the focus on its first button. -/
def demo : WidgetTree := (WidgetTree.setFocusIndex ⟨Tree.demo, [], 0⟩ 0).1

theorem demo_ready : demo.root.Ok ∧ demo.root.NoHiddenBefore ∧ demo.root.ring[demo.index]? = some demo.path := by
  have s := Tree.set_root ⟨Tree.demo, [], 0⟩ Tree.demo_ok 0 (by decide +kernel)
  exact ⟨s.2.2.1, Tree.nohidden_congr s.2.2.2 Tree.demo_nohidden, by decide +kernel⟩

/-- From the first button Shift+Tab leads to the last, and Enter uses it. -/
example : let e : Keys.Event := { code := .enter }
    let es : List Keys.Event := [{ code := .backTab, mods := { shift := true } }, { code := .tab }, { code := .backTab }]
    demo.root.Ok ∧ demo.root.NoHiddenBefore ∧ demo.root.ring[demo.index]? = some demo.path ∧
    demo.root.ring = [[0], [1, 0], [2]] ∧
    (run buttons (fun _ => false) (es ++ [e]) (demo, fun _ => {}, [])).2.2 = [[2]] :=
  ⟨demo_ready.1, demo_ready.2.1, demo_ready.2.2, by decide +kernel, by decide +kernel⟩

/-- **C197** fails with a hidden button in front: the only button Tab visits has the focus, and Enter sends the message of the
hidden one. -/
theorem hidden_counterexample :
    let root : Tree.W := .node .screen { typeName := "Screen" } [Tree.button "a" false, Tree.button "b"]
    let t := (WidgetTree.setFocusIndex ⟨root, [], 0⟩ 0).1
    t.root.ring = [[1]] ∧ t.root.focusedPaths = [[1]] ∧
    (run buttons (fun _ => false) [{ code := .enter }] (t, fun _ => {}, [])).2.2 = [[0]] := by decide +kernel

end Textual.Tabs
