import Verif.Model.Form
import Verif.Props.Tabs
import Verif.Props.Input

/-!
# Forms (C204)
-/

namespace Textual.Form

open Tree (WidgetTree)
open Tabs (move moves run)

variable {σ : Type}

/-- The widget the focus is on `d` places behind place `i` of the ring. -/
def place (ring : List (List Nat)) (i : Int) : Option (List Nat) := ring[(i % ring.length).toNat]?

/-- The keys pressed while the focus is on `p`, if it starts at place `i` of the ring: Tab and Shift+Tab move it on and
back. A key that moves the focus counts for the widget it moves it to. -/
def taken (ring : List (List Nat)) (p : List Nat) : Int → List Keys.Event → List Binding.Key
  | _, [] => []
  | i, e :: es =>
    if place ring (i + move e.code) = some p then e.code :: taken ring p (i + move e.code) es
    else taken ring p (i + move e.code) es

theorem taken_append (ring : List (List Nat)) (p : List Nat) (i : Int) (es fs : List Keys.Event) :
    taken ring p i (es ++ fs) = taken ring p i es ++ taken ring p (i + moves es) fs := by
  induction es generalizing i with
  | nil => simp [taken, moves]
  | cons e es ih =>
    have hm : moves (e :: es) = move e.code + moves es := by simp [moves]
    simp only [List.cons_append, taken]
    rw [ih, hm, Int.add_assoc]
    split <;> simp

/-- **C204** (partial: C197's conditions). Whatever keys are pressed, each widget makes of them what it makes of the keys
pressed while it had the focus, in order, and nothing else. -/
theorem own_keys_partial (step : List Nat → Binding.Key → σ → σ) (sc : Binding.Event → Bool) (t : WidgetTree)
    (s : List Nat → σ) (hok : t.root.Ok) (hh : t.root.NoHiddenBefore) (ht : t.root.ring[t.index]? = some t.path)
    (es : List Keys.Event) (hs : ∀ e ∈ es, sc ⟨e.code, e.mods⟩ = false) (p : List Nat) :
    (run (each step) sc es (t, s)).2 p = (taken t.root.ring p t.index es).foldl (fun x k => step p k x) (s p) := by
  induction es using List.reverseRecOn with
  | nil => rfl
  | append_singleton es e ih =>
    obtain ⟨q, hq, -, -, h⟩ := Tabs.keys_partial (each step) sc t s hok hh ht es e hs
    have ih := ih fun e' he => hs e' (by simp [he])
    have hm : moves (es ++ [e]) = moves es + move e.code := by simp [moves]
    rw [h, taken_append, List.foldl_append, ← ih]
    simp only [taken, place, Int.add_assoc, ← hm, hq, Option.some.injEq]
    show (if p = q then _ else _) = _
    by_cases hpq : p = q
    · subst hpq
      simp
    · rw [if_neg hpq, if_neg (fun h => hpq h.symm)]
      rfl

/-- What a key of the terminal does in an ordinary editor: the text before the cursor and the text after it. 0 and 1 stand for
Backspace and Delete. -/
def edit (z : Input.Zip) : Binding.Key → Input.Zip
  | .char c => ⟨z.left ++ [c], z.right⟩
  | .left => ⟨z.left.dropLast, z.left.getLast?.toList ++ z.right⟩
  | .right => ⟨z.left ++ z.right.head?.toList, z.right.tail⟩
  | .home => ⟨[], z.left ++ z.right⟩
  | .end => ⟨z.left ++ z.right, []⟩
  | .other 0 => ⟨z.left.dropLast, z.right⟩
  | .other 1 => ⟨z.left, z.right.tail⟩
  | _ => z

theorem edit_key (z : Input.Zip) (k : Binding.Key) : edit z k = z.key (Keys.inputKey k) := by
  cases k with
  | other n => unfold edit Keys.inputKey; split <;> simp_all [Input.Zip.key]
  | _ => rfl

/-- **C204** (partial, as above; plain characters as in C76). After any keys every input holds the text and the cursor that an
ordinary editor has after the keys pressed while the input had the focus. -/
theorem edited_partial {seg : List Char → List (List Char)} {P : Char → Prop} (h : Input.SegOk seg)
    (hp : Input.Plain seg P) (sc : Binding.Event → Bool) (t : WidgetTree) (fs : List Nat → Input.Input)
    (hok : t.root.Ok) (hh : t.root.NoHiddenBefore) (ht : t.root.ring[t.index]? = some t.path)
    (es : List Keys.Event) (hs : ∀ e ∈ es, sc ⟨e.code, e.mods⟩ = false) (hc : ∀ e ∈ es, ∀ c, e.code = .char c → P c)
    (p : List Nat) (z : Input.Zip) (hz : Input.Rel P (fs p) z) :
    let i := (run (inputs seg) sc es (t, fs)).2 p
    let z' := (taken t.root.ring p t.index es).foldl edit z
    i.value = z'.left ++ z'.right ∧ i.cursor = z'.left.length := by
  dsimp only
  unfold inputs
  rw [own_keys_partial _ sc t fs hok hh ht es hs p]
  have hsub : ∀ (i : Int) (es : List Keys.Event), (∀ e ∈ es, ∀ c, e.code = .char c → P c) →
      ∀ k ∈ taken t.root.ring p i es, ∀ c, k = .char c → P c := by
    intro i es
    induction es generalizing i with
    | nil => intro _ k hk; cases hk
    | cons e es ih =>
      intro hc k hk
      have ih := ih (i + move e.code) fun e' he => hc e' (by simp [he])
      simp only [taken] at hk
      split at hk
      · rcases List.mem_cons.1 hk with rfl | hk
        · exact hc e (by simp)
        · exact ih k hk
      · exact ih k hk
  have key : ∀ (ks : List Binding.Key), (∀ k ∈ ks, ∀ c, k = .char c → P c) → ∀ (i : Input.Input) (z : Input.Zip),
      Input.Rel P i z → Input.Rel P (ks.foldl (fun x k => x.onKey seg (Keys.inputKey k)) i)
        (ks.foldl edit z) := by
    intro ks
    induction ks with
    | nil => intro _ i z r; exact r
    | cons k ks ih =>
      intro hk i z r
      refine ih (fun k' hk' => hk k' (by simp [hk'])) _ _ (edit_key z k ▸ Input.rel_key h hp r _ ?_)
      have := hk k (by simp)
      cases k with
      | char c => exact this c rfl
      | other n => unfold Keys.inputKey; split <;> trivial
      | _ => trivial
  have r := key _ (hsub t.index es hc) (fs p) z hz
  exact ⟨r.1, r.2.1⟩

/-! ### Filling in -/

/-- The keys of the texts, with Tab between them. -/
def script : List (List Char) → List Keys.Event
  | [] => []
  | [text] => text.map fun c => { code := .char c }
  | text :: texts => (text.map fun c => { code := .char c }) ++ { code := .tab } :: script texts

/-- What of the texts, one for each place of the ring from `i` on, is for the widget `p`. -/
def meant (ring : List (List Nat)) (p : List Nat) : Int → List (List Char) → List Char
  | _, [] => []
  | i, text :: texts => (if place ring i = some p then text else []) ++ meant ring p (i + 1) texts

theorem taken_text (ring : List (List Nat)) (p : List Nat) (i : Int) (text : List Char) :
    taken ring p i (text.map fun c => { code := .char c }) =
      if place ring i = some p then text.map Binding.Key.char else [] := by
  induction text with
  | nil => simp [taken]
  | cons c text ih =>
    simp only [List.map_cons, taken, move, Int.add_zero, ih]
    split <;> rfl

theorem moves_text (text : List Char) : moves (text.map fun c => { code := .char c }) = 0 := by
  induction text with
  | nil => rfl
  | cons c text ih => simp only [moves, List.map_cons, List.sum_cons, move] at ih ⊢; omega

theorem typed_zip (text : List Char) (z : Input.Zip) :
    (text.map Binding.Key.char).foldl edit z = ⟨z.left ++ text, z.right⟩ := by
  induction text generalizing z with
  | nil => simp
  | cons c text ih =>
    rw [List.map_cons, List.foldl_cons, ih]
    simp [edit]

theorem script_zip (ring : List (List Nat)) (p : List Nat) (i : Int) (texts : List (List Char)) (z : Input.Zip) :
    (taken ring p i (script texts)).foldl edit z = ⟨z.left ++ meant ring p i texts, z.right⟩ := by
  induction texts generalizing i z with
  | nil => simp [script, taken, meant]
  | cons text texts ih =>
    have h1 : (taken ring p i (text.map fun c => { code := .char c })).foldl edit z =
        ⟨z.left ++ (if place ring i = some p then text else []), z.right⟩ := by
      rw [taken_text]
      split
      · exact typed_zip text z
      · simp
    cases texts with
    | nil =>
      show (taken ring p i (text.map fun c => { code := .char c })).foldl _ z = _
      rw [h1]
      simp [meant]
    | cons text' texts =>
      show (taken ring p i ((text.map fun c => { code := .char c }) ++ { code := .tab } :: script (text' :: texts))).foldl _ z = _
      rw [taken_append, List.foldl_append, h1, moves_text, Int.add_zero]
      have h2 : ∀ z : Input.Zip, (taken ring p i ({ code := .tab } :: script (text' :: texts))).foldl
          edit z =
          (taken ring p (i + 1) (script (text' :: texts))).foldl edit z := by
        intro z
        show (if place ring (i + 1) = some p then Binding.Key.tab :: taken ring p (i + 1) (script (text' :: texts))
          else taken ring p (i + 1) (script (text' :: texts))).foldl _ z = _
        by_cases hq : place ring (i + 1) = some p
        · rw [if_pos hq]; rfl
        · rw [if_neg hq]
      rw [h2, ih]
      simp only [meant, List.append_assoc]

/-- **C204** (partial, as above). Typing a text, Tab, the next text, Tab and so on puts each text at the cursor of the input
that many places behind the first, round the ring, and changes no other input. -/
theorem filled_partial {seg : List Char → List (List Char)} {P : Char → Prop} (h : Input.SegOk seg)
    (hp : Input.Plain seg P) (sc : Binding.Event → Bool) (t : WidgetTree) (fs : List Nat → Input.Input)
    (hok : t.root.Ok) (hh : t.root.NoHiddenBefore) (ht : t.root.ring[t.index]? = some t.path)
    (texts : List (List Char)) (hs : ∀ e ∈ script texts, sc ⟨e.code, e.mods⟩ = false)
    (hc : ∀ text ∈ texts, ∀ c ∈ text, P c)
    (p : List Nat) (left right : List Char) (hz : Input.Rel P (fs p) ⟨left, right⟩) :
    ((run (inputs seg) sc (script texts) (t, fs)).2 p).value = left ++ meant t.root.ring p t.index texts ++ right := by
  have hmem : ∀ texts : List (List Char), (∀ text ∈ texts, ∀ c ∈ text, P c) →
      ∀ e ∈ script texts, ∀ c, e.code = .char c → P c := by
    intro texts
    induction texts with
    | nil => intro _ e he; cases he
    | cons text texts ih =>
      intro hc e he c hec
      have ht : e ∈ (text.map fun c => ({ code := .char c } : Keys.Event)) → P c := by
        intro hm
        obtain ⟨d, hd, rfl⟩ := List.mem_map.1 hm
        cases hec
        exact hc text (by simp) c hd
      cases texts with
      | nil => exact ht he
      | cons text' texts =>
        rcases List.mem_append.1 he with hm | hm
        · exact ht hm
        · rcases List.mem_cons.1 hm with rfl | hm
          · cases hec
          · exact ih (fun x hx => hc x (by simp [hx])) e hm c hec
  have := (edited_partial h hp sc t fs hok hh ht (script texts) hs (hmem texts hc) p ⟨left, right⟩ hz).1
  rw [this, script_zip]

theorem same_place (i a n : Nat) (ha : a < n) (h : (i + a) % n = i % n) : a = 0 := by
  have hx := Nat.mod_lt i (show 0 < n by omega)
  rw [Nat.add_mod, Nat.mod_eq_of_lt ha] at h
  by_cases hl : i % n + a < n
  · rw [Nat.mod_eq_of_lt hl] at h
    omega
  · rw [Nat.mod_eq_sub_mod (by omega), Nat.mod_eq_of_lt (by omega)] at h
    omega

/-- The place of a text. -/
theorem meant_at (ring : List (List Nat)) (hn : ring.Nodup) (i : Nat) (texts : List (List Char))
    (hl : texts.length ≤ ring.length) (j : Nat) (hj : j < texts.length) (p : List Nat)
    (hp : ring[(i + j) % ring.length]? = some p) : meant ring p i texts = texts[j] := by
  have place_eq : ∀ k : Nat, place ring (k : Int) = ring[k % ring.length]? := by
    intro k
    simp only [place]
    rw [← Int.natCast_emod, Int.toNat_natCast]
  have hpos : 0 < ring.length := by omega
  have none_at : ∀ (texts : List (List Char)) (i : Nat), (∀ k < texts.length, ring[(i + k) % ring.length]? ≠ some p) →
      meant ring p i texts = [] := by
    intro texts
    induction texts with
    | nil => intro _ _; rfl
    | cons text texts ih =>
      intro i hk
      have h0 := hk 0 (by simp)
      rw [Nat.add_zero] at h0
      simp only [meant, place_eq, if_neg h0, List.nil_append]
      exact ih (i + 1) fun k hk' => by
        have := hk (k + 1) (by simpa using hk')
        rwa [show i + (k + 1) = i + 1 + k by omega] at this
  induction texts generalizing i j with
  | nil => simp at hj
  | cons text texts ih =>
    cases j with
    | zero =>
      rw [Nat.add_zero] at hp
      simp only [meant, place_eq, hp, if_true, List.getElem_cons_zero]
      rw [show (i : Int) + 1 = ((i + 1 : Nat) : Int) by omega, none_at, List.append_nil]
      intro k hk he
      have h1 : (i + 1 + k) % ring.length = i % ring.length := by
        have e1 := (List.getElem?_eq_some_iff.1 he).choose_spec
        have e2 := (List.getElem?_eq_some_iff.1 hp).choose_spec
        exact (List.Nodup.getElem_inj_iff hn).1 (e1.trans e2.symm)
      simp only [List.length_cons] at hl
      rw [show i + 1 + k = i + (k + 1) by omega] at h1
      have := same_place i (k + 1) ring.length (by omega) h1
      omega
    | succ j =>
      simp only [List.length_cons] at hl hj
      have h0 : ¬ ring[i % ring.length]? = some p := by
        intro he
        have h1 : (i + (j + 1)) % ring.length = i % ring.length := by
          have e1 := (List.getElem?_eq_some_iff.1 hp).choose_spec
          have e2 := (List.getElem?_eq_some_iff.1 he).choose_spec
          exact (List.Nodup.getElem_inj_iff hn).1 (e1.trans e2.symm)
        have := same_place i (j + 1) ring.length (by omega) h1
        omega
      simp only [meant, place_eq, if_neg h0, List.nil_append, List.getElem_cons_succ]
      exact ih (i + 1) (by omega) j (by omega) (by rwa [show i + 1 + j = i + (j + 1) by omega])

/-- **C204** (partial, as above). A form of empty inputs: with at most as many texts as there are inputs, the `j`-th input
from the focused one on, round the ring, holds the `j`-th text. -/
theorem form_partial {seg : List Char → List (List Char)} {P : Char → Prop} (h : Input.SegOk seg)
    (hp : Input.Plain seg P) (sc : Binding.Event → Bool) (t : WidgetTree) (fs : List Nat → Input.Input)
    (hok : t.root.Ok) (hh : t.root.NoHiddenBefore) (ht : t.root.ring[t.index]? = some t.path)
    (texts : List (List Char)) (hl : texts.length ≤ t.root.ring.length)
    (hs : ∀ e ∈ script texts, sc ⟨e.code, e.mods⟩ = false) (hc : ∀ text ∈ texts, ∀ c ∈ text, P c)
    (he : ∀ p, (fs p).value = [] ∧ (fs p).cursor = 0 ∧ (fs p).disabled = false ∧ (fs p).visible = true)
    (j : Nat) (hj : j < texts.length) :
    ∃ p, t.root.ring[(t.index + j) % t.root.ring.length]? = some p ∧
      ((run (inputs seg) sc (script texts) (t, fs)).2 p).value = texts[j] := by
  have hpos : (t.index + j) % t.root.ring.length < t.root.ring.length := Nat.mod_lt _ (by omega)
  refine ⟨_, List.getElem?_eq_getElem hpos, ?_⟩
  obtain ⟨e1, e2, e3, e4⟩ := he t.root.ring[(t.index + j) % t.root.ring.length]
  rw [filled_partial h hp sc t fs hok hh ht texts hs hc _ [] [] ⟨by rw [e1]; rfl, by rw [e2]; rfl, e3, e4, by rw [e1]; simp⟩,
    meant_at t.root.ring ((Tree.W.paths_nodup _).filter _) t.index texts hl j hj _ (List.getElem?_eq_getElem hpos)]
  simp

/-! ### A form -/

/-- An input with an id. -/
def field (id : String) (displayed : Bool := true) : Tree.W :=
  .node .leaf { id := some id, typeName := "Input", focusable := true, displayed := displayed } []

/-- A screen with an input for the name and a column with inputs for street and town. -/
def address : Tree.W :=
  .node .screen { typeName := "Screen" } [field "name", .node .container { typeName := "Vertical" } [field "street", field "town"]]

def demo : WidgetTree := (WidgetTree.setFocusIndex ⟨address, [], 0⟩ 0).1

theorem address_ok : address.Ok ∧ address.NoHiddenBefore := by
  constructor
  · refine Tree.box_ok _ _ _ rfl rfl (fun h => by cases h) ?_
    intro c hc
    simp only [List.mem_cons, List.not_mem_nil, or_false] at hc
    rcases hc with rfl | rfl
    · exact Tree.leaf_ok _ _
    · refine Tree.box_ok _ _ _ rfl rfl (fun h => by cases h) ?_
      intro c hc
      simp only [List.mem_cons, List.not_mem_nil, or_false] at hc
      rcases hc with rfl | rfl <;> exact Tree.leaf_ok _ _
  · unfold Tree.W.NoHiddenBefore
    decide +kernel

theorem demo_ready : demo.root.Ok ∧ demo.root.NoHiddenBefore ∧ demo.root.ring[demo.index]? = some demo.path := by
  have s := Tree.set_root ⟨address, [], 0⟩ address_ok.1 0 (by decide +kernel)
  exact ⟨s.2.2.1, Tree.nohidden_congr s.2.2.2 address_ok.2, by decide +kernel⟩

/-- Name, street and town are filled in, then Shift+Tab, a letter and Backspace correct the street. -/
example : let texts := ["Ada".toList, "Elm 3".toList, "Bath".toList]
    let es := script texts ++ [{ code := .backTab }, { code := .other 0 }, { code := .char '5' }]
    let fs : List Nat → Input.Input := fun _ => {}
    demo.root.Ok ∧ demo.root.NoHiddenBefore ∧ demo.root.ring[demo.index]? = some demo.path ∧
    texts.length ≤ demo.root.ring.length ∧ (∀ text ∈ texts, ∀ c ∈ text, c ≠ '́') ∧
    (∀ e ∈ es, (fun b : Binding.Event => b.mods.ctrl) ⟨e.code, e.mods⟩ = false) ∧
    demo.root.ring = [[0], [1, 0], [1, 1]] ∧
    taken demo.root.ring [1, 0] 0 es = [.tab, .char 'E', .char 'l', .char 'm', .char ' ', .char '3', .backTab, .other 0, .char '5'] ∧
    (demo.root.ring.map fun p => ((run (inputs Input.segAccent) (fun b => b.mods.ctrl) es (demo, fs)).2 p).value) =
      ["Ada".toList, "Elm 5".toList, "Bath".toList] := by
  refine ⟨demo_ready.1, demo_ready.2.1, demo_ready.2.2, ?_, ?_, ?_, ?_, ?_, ?_⟩ <;> decide +kernel

/-- The editor of C76 for an empty input. -/
example : Input.Rel (· ≠ '́') ({} : Input.Input) ⟨[], []⟩ := ⟨rfl, rfl, rfl, rfl, by simp⟩

/-- **C204** fails with an input in front that has `display: none`: the other input has the focus and the look of it, and
what is typed goes into the one that is not displayed. -/
theorem display_counterexample :
    let root : Tree.W := .node .screen { typeName := "Screen" } [field "a" false, field "b"]
    let t := (WidgetTree.setFocusIndex ⟨root, [], 0⟩ 0).1
    t.root.ring = [[1]] ∧ t.root.focusedPaths = [[1]] ∧
    ([[0], [1]].map fun p =>
      ((run (inputs Input.segAccent) (fun _ => false) (script ["hi".toList]) (t, fun _ => {})).2 p).value) =
      ["hi".toList, []] := by decide +kernel

end Textual.Form
