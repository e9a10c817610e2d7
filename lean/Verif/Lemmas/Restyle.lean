import Verif.Spec.Restyle
import Mathlib.Tactic.Common

/-! Lemmas about style resolution. -/

namespace Textual.Restyle

theorem allStore_mem {cs : List W} : AllStore cs ↔ ∀ c ∈ cs, c.Stores := by
  induction cs with
  | nil => simp [AllStore]
  | cons c cs ih => simp [AllStore, ih]

theorem allExact_mem {cas : Cascade} {anc : List Css.Widget} {inh : Inherited} {cs : List W} :
    AllExact cas anc inh cs ↔ ∀ c ∈ cs, c.Exact cas anc inh := by
  induction cs with
  | nil => simp [AllExact]
  | cons c cs ih => simp [AllExact, ih]

theorem allBones_eq (cs : List W) : allBones cs = cs.map W.bones := by
  induction cs with
  | nil => rfl
  | cons c cs ih => simp [allBones, ih]

theorem cleanAll_eq (cs : List W) : cleanAll cs = cs.map W.markClean := by
  induction cs with
  | nil => rfl
  | cons c cs ih => simp [cleanAll, ih]

theorem soilAll_eq (cs : List W) : soilAll cs = cs.map W.markDirty := by
  induction cs with
  | nil => rfl
  | cons c cs ih => simp [soilAll, ih]

theorem depth_mem {cs : List W} {n : Nat} : depthAll cs ≤ n ↔ ∀ c ∈ cs, c.depth ≤ n := by
  induction cs with
  | nil => simp [depthAll]
  | cons c cs ih => simp [depthAll, Nat.max_le, ih]

theorem anyDirty_false {cs : List W} : anyDirty cs = false ↔ ∀ c ∈ cs, c.isDirty = false := by
  induction cs with
  | nil => simp [anyDirty]
  | cons c cs ih => simp [anyDirty, ih]

mutual
/-- Marking clean changes no depth. -/
theorem depth_markClean : ∀ w : W, w.markClean.depth = w.depth
  | .node a cs => by
    rw [W.markClean]
    split <;> simp [W.depth, depth_cleanAll cs]
theorem depth_cleanAll : ∀ cs : List W, depthAll (cleanAll cs) = depthAll cs
  | [] => rfl
  | c :: cs => by simp [cleanAll, depthAll, depth_markClean c, depth_cleanAll cs]
end

mutual
theorem stores_markClean : ∀ w : W, w.markClean.Stores ↔ w.Stores
  | .node a cs => by
    rw [W.markClean]
    split <;> simp [W.Stores, stores_cleanAll cs]
theorem stores_cleanAll : ∀ cs : List W, AllStore (cleanAll cs) ↔ AllStore cs
  | [] => Iff.rfl
  | c :: cs => by simp [cleanAll, AllStore, stores_markClean c, stores_cleanAll cs]
end

mutual
theorem stores_markDirty : ∀ w : W, w.markDirty.Stores ↔ w.Stores
  | .node a cs => by
    rw [W.markDirty]
    split <;> simp [W.Stores, stores_soilAll cs]
theorem stores_soilAll : ∀ cs : List W, AllStore (soilAll cs) ↔ AllStore cs
  | [] => Iff.rfl
  | c :: cs => by simp [soilAll, AllStore, stores_markDirty c, stores_soilAll cs]
end

mutual
theorem bones_markClean : ∀ w : W, w.markClean.bones = w.bones
  | .node a cs => by
    rw [W.markClean]
    split <;> simp [W.bones, bones_cleanAll cs]
theorem bones_cleanAll : ∀ cs : List W, allBones (cleanAll cs) = allBones cs
  | [] => rfl
  | c :: cs => by simp [cleanAll, allBones, bones_markClean c, bones_cleanAll cs]
end

/-- What `mark_clean` leaves of the children. -/
def keptChildren (a : Attrs) (cs : List W) : List W :=
  match a.kind with
  | .group => cleanAll cs
  | _ => cs

theorem markClean_eq (a : Attrs) (cs : List W) :
    (W.node a cs).markClean = .node { a with dirty := false } (keptChildren a cs) := by
  rw [W.markClean, keptChildren]
  cases a.kind <;> rfl

theorem keptChildren_facts (a : Attrs) (cs : List W) :
    depthAll (keptChildren a cs) = depthAll cs ∧ (AllStore (keptChildren a cs) ↔ AllStore cs) ∧
      allBones (keptChildren a cs) = allBones cs := by
  rw [keptChildren]
  split
  · exact ⟨depth_cleanAll cs, stores_cleanAll cs, bones_cleanAll cs⟩
  · exact ⟨rfl, Iff.rfl, rfl⟩

/-- The widget after it was given its style and marked clean. -/
def restyled (cas : Cascade) (anc : List Css.Widget) (inh : Inherited) (a : Attrs) : Attrs :=
  { a.setStyle (a.due cas anc inh) with dirty := false }

theorem setStyle_kind (a : Attrs) (s : Style) : (a.setStyle s).kind = a.kind := by
  unfold Attrs.setStyle
  cases h : a.kind <;> simp [h]

theorem keptChildren_setStyle (a : Attrs) (s : Style) (cs : List W) :
    keptChildren (a.setStyle s) cs = keptChildren a cs := by
  unfold keptChildren
  rw [setStyle_kind]

/-- One level of the resolver. -/
theorem passN_succ (cas : Cascade) (n : Nat) (anc : List Css.Widget) (pd : Bool) (inh : Inherited)
    (a : Attrs) (cs : List W) :
    passN cas (n + 1) anc pd inh (.node a cs) =
      if !a.visible then .node a cs
      else if (W.node a cs).isDirty || pd then
        .node (restyled cas anc inh a) ((keptChildren a cs).map
          (passN cas n ((restyled cas anc inh a).meta :: anc) true
            (childContext (a.due cas anc inh) inh)))
      else .node a (cs.map (passN cas n (a.meta :: anc) false (childContext a.getStyle inh))) := by
  have hk := keptChildren_setStyle a (a.due cas anc inh) cs
  rw [passN]
  simp only [markClean_eq]
  unfold Attrs.due at hk
  rw [hk]
  rfl

mutual
/-- The invariant between frames: a visible clean widget below clean widgets has its due style. -/
def W.Inv (cas : Cascade) (anc : List Css.Widget) (inh : Inherited) : W → Prop
  | .node a cs => a.visible = true → a.dirty = false →
    a.style = a.due cas anc inh ∧ AllInv cas (a.meta :: anc) (childContext a.style inh) cs
/-- `Inv` for the children. -/
def AllInv (cas : Cascade) (anc : List Css.Widget) (inh : Inherited) : List W → Prop
  | [] => True
  | c :: cs => c.Inv cas anc inh ∧ AllInv cas anc inh cs
end

theorem allInv_mem {cas : Cascade} {anc : List Css.Widget} {inh : Inherited} {cs : List W} :
    AllInv cas anc inh cs ↔ ∀ c ∈ cs, c.Inv cas anc inh := by
  induction cs with
  | nil => simp [AllInv]
  | cons c cs ih => simp [AllInv, ih]

mutual
theorem inv_of_exact (cas : Cascade) : ∀ (w : W) (anc : List Css.Widget) (inh : Inherited),
    w.Exact cas anc inh → w.Inv cas anc inh
  | .node a cs, anc, inh, h => by
    intro hv _
    obtain ⟨_, h2, h3⟩ := h hv
    exact ⟨h2, allInv_of_exact cas cs _ _ h3⟩
theorem allInv_of_exact (cas : Cascade) : ∀ (cs : List W) (anc : List Css.Widget) (inh : Inherited),
    AllExact cas anc inh cs → AllInv cas anc inh cs
  | [], _, _, _ => trivial
  | c :: cs, anc, inh, h => ⟨inv_of_exact cas c anc inh h.1, allInv_of_exact cas cs anc inh h.2⟩
end

theorem restyled_due {cas : Cascade} (hc : Settled cas) {a : Attrs} (hb : a.kind ≠ .bare)
    (anc : List Css.Widget) (inh : Inherited) :
    (restyled cas anc inh a).style = a.due cas anc inh ∧
      (restyled cas anc inh a).due cas anc inh = a.due cas anc inh ∧
      (restyled cas anc inh a).dirty = false ∧ (restyled cas anc inh a).visible = a.visible ∧
      (restyled cas anc inh a).kind = a.kind := by
  obtain ⟨kind, base, visible, dirty, inline, style⟩ := a
  cases kind with
  | bare => exact absurd rfl hb
  | plain => exact ⟨rfl, rfl, rfl, rfl, rfl⟩
  | group => exact ⟨rfl, rfl, rfl, rfl, rfl⟩
  | container =>
    refine ⟨rfl, ?_, rfl, rfl, rfl⟩
    show inline.applyTo (applyInheritance (cas (withLayout _ base) anc) inh) =
      inline.applyTo (applyInheritance (cas (withLayout style.layout base) anc) inh)
    rw [hc base _ style.layout anc]

theorem due_getStyle {a : Attrs} (hb : a.kind ≠ .bare) : a.getStyle = a.style := by
  unfold Attrs.getStyle
  cases h : a.kind <;> simp_all

theorem isDirty_false {a : Attrs} {cs : List W} (h : (W.node a cs).isDirty = false) :
    a.dirty = false := by
  rw [W.isDirty] at h
  cases hk : a.kind <;> simp_all

/-- The resolver establishes the exact styles: below a restyled parent whatever the state was, below
a clean one if the invariant holds. -/
theorem passN_exact {cas : Cascade} (hc : Settled cas) : ∀ (n : Nat) (w : W) (anc : List Css.Widget)
    (pd : Bool) (inh : Inherited), w.Stores → w.depth ≤ n → (pd = false → w.Inv cas anc inh) →
    (passN cas n anc pd inh w).Exact cas anc inh := by
  intro n
  induction n with
  | zero =>
    intro w anc pd inh _ hd _
    cases w with
    | node a cs => simp [W.depth] at hd
  | succ n ih =>
    intro w anc pd inh hs hd hi
    cases w with
    | node a cs =>
      have hd' : depthAll cs ≤ n := by
        rw [W.depth] at hd
        exact Nat.le_of_succ_le_succ hd
      obtain ⟨hb, hcs⟩ := hs
      rw [passN_succ]
      cases hv : a.visible with
      | false =>
        rw [if_pos (by rfl)]
        intro hv'
        rw [hv] at hv'
        cases hv'
      | true =>
        rw [if_neg (by decide)]
        cases hr : ((W.node a cs).isDirty || pd) with
        | true =>
          rw [if_pos rfl]
          obtain ⟨h1, h2, h3, _, _⟩ := restyled_due hc hb anc inh
          obtain ⟨k1, k2, _⟩ := keptChildren_facts a cs
          intro _
          refine ⟨h3, by rw [h1, h2], ?_⟩
          rw [h1, allExact_mem]
          intro c hcm
          obtain ⟨c', hc', rfl⟩ := List.mem_map.mp hcm
          exact ih c' _ true _ (allStore_mem.mp (k2.mpr hcs) c' hc')
            (depth_mem.mp (k1 ▸ hd') c' hc') (fun e => by cases e)
        | false =>
          rw [if_neg (by decide)]
          obtain ⟨hr1, hr2⟩ := Bool.or_eq_false_iff.mp hr
          have hdirty := isDirty_false hr1
          obtain ⟨i1, i2⟩ := hi hr2 hv hdirty
          intro _
          refine ⟨hdirty, i1, ?_⟩
          rw [due_getStyle hb, allExact_mem]
          intro c hcm
          obtain ⟨c', hc', rfl⟩ := List.mem_map.mp hcm
          exact ih c' _ false _ (allStore_mem.mp hcs c' hc') (depth_mem.mp hd' c' hc')
            (fun _ => allInv_mem.mp i2 c' hc')

theorem stores_node {a a' : Attrs} {cs cs' : List W} (hk : a'.kind = a.kind)
    (hcs : AllStore cs → AllStore cs') (h : (W.node a cs).Stores) : (W.node a' cs').Stores :=
  ⟨by rw [hk]; exact h.1, hcs h.2⟩

theorem restyled_kind (cas : Cascade) (anc : List Css.Widget) (inh : Inherited) (a : Attrs) :
    (restyled cas anc inh a).kind = a.kind := setStyle_kind a _

theorem passN_stores (cas : Cascade) : ∀ (n : Nat) (w : W) (anc : List Css.Widget) (pd : Bool)
    (inh : Inherited), w.Stores → (passN cas n anc pd inh w).Stores := by
  intro n
  induction n with
  | zero => intro w _ _ _ h; cases w; exact h
  | succ n ih =>
    intro w anc pd inh h
    cases w with
    | node a cs =>
      rw [passN_succ]
      split
      · exact h
      · split
        · refine stores_node (restyled_kind cas anc inh a) (fun hcs => ?_) h
          rw [allStore_mem]
          intro c hcm
          obtain ⟨c', hc', rfl⟩ := List.mem_map.mp hcm
          exact ih c' _ _ _ (allStore_mem.mp ((keptChildren_facts a cs).2.1.mpr hcs) c' hc')
        · refine stores_node rfl (fun hcs => ?_) h
          rw [allStore_mem]
          intro c hcm
          obtain ⟨c', hc', rfl⟩ := List.mem_map.mp hcm
          exact ih c' _ _ _ (allStore_mem.mp hcs c' hc')

theorem bones_restyled (cas : Cascade) (anc : List Css.Widget) (inh : Inherited) (a : Attrs) :
    ({ restyled cas anc inh a with style := {}, dirty := false } : Attrs) =
      { a with style := {}, dirty := false } := by
  obtain ⟨kind, base, visible, dirty, inline, style⟩ := a
  cases kind <;> rfl

theorem passN_bones (cas : Cascade) : ∀ (n : Nat) (w : W) (anc : List Css.Widget) (pd : Bool)
    (inh : Inherited), (passN cas n anc pd inh w).bones = w.bones := by
  intro n
  induction n with
  | zero => intro w _ _ _; cases w; rfl
  | succ n ih =>
    intro w anc pd inh
    cases w with
    | node a cs =>
      rw [passN_succ]
      split
      · rfl
      · split
        · rw [W.bones, W.bones, bones_restyled, allBones_eq, List.map_map]
          have : (keptChildren a cs).map (W.bones ∘ passN cas n ((restyled cas anc inh a).meta :: anc)
              true (childContext (a.due cas anc inh) inh)) = (keptChildren a cs).map W.bones :=
            List.map_congr_left fun c _ => ih c _ _ _
          rw [this, ← allBones_eq, (keptChildren_facts a cs).2.2]
        · rw [W.bones, W.bones, allBones_eq, List.map_map, allBones_eq]
          have : cs.map (W.bones ∘ passN cas n (a.meta :: anc) false (childContext a.getStyle inh)) =
              cs.map W.bones := List.map_congr_left fun c _ => ih c _ _ _
          rw [this]

mutual
theorem isDirty_markClean : ∀ w : W, w.markClean.isDirty = false
  | .node a cs => by
    rw [W.markClean]
    cases hk : a.kind <;> simp [W.isDirty, hk, anyDirty_cleanAll cs]
theorem anyDirty_cleanAll : ∀ cs : List W, anyDirty (cleanAll cs) = false
  | [] => rfl
  | c :: cs => by simp [cleanAll, anyDirty, isDirty_markClean c, anyDirty_cleanAll cs]
end

theorem isDirty_eq (a : Attrs) (cs : List W) :
    (W.node a cs).isDirty = (a.dirty || (decide (a.kind = .group) && anyDirty cs)) := by
  rw [W.isDirty]
  cases a.kind <;> simp

theorem restyled_dirty (cas : Cascade) (anc : List Css.Widget) (inh : Inherited) (a : Attrs) :
    (restyled cas anc inh a).dirty = false := rfl

theorem anyDirty_kept (a : Attrs) (cs : List W) (hk : a.kind = .group) :
    anyDirty (keptChildren a cs) = false := by
  rw [keptChildren, hk]
  exact anyDirty_cleanAll cs

theorem passN_isDirty (cas : Cascade) : ∀ (n : Nat) (w : W) (anc : List Css.Widget) (pd : Bool)
    (inh : Inherited), w.isDirty = false → (passN cas n anc pd inh w).isDirty = false := by
  intro n
  induction n with
  | zero => intro w _ _ _ h; cases w; exact h
  | succ n ih =>
    intro w anc pd inh h
    cases w with
    | node a cs =>
      rw [isDirty_eq, Bool.or_eq_false_iff] at h
      rw [passN_succ]
      split
      · rw [isDirty_eq, Bool.or_eq_false_iff]; exact h
      · split
        · rw [isDirty_eq, restyled_dirty, Bool.false_or, restyled_kind]
          by_cases hk : a.kind = .group
          · simp only [hk, decide_true, Bool.true_and]
            rw [anyDirty_false]
            intro c hcm
            obtain ⟨c', hc', rfl⟩ := List.mem_map.mp hcm
            exact ih c' _ _ _ (anyDirty_false.mp (anyDirty_kept a cs hk) c' hc')
          · simp [hk]
        · rw [isDirty_eq, h.1, Bool.false_or]
          by_cases hk : a.kind = .group
          · have h2 := h.2
            simp only [hk, decide_true, Bool.true_and] at h2 ⊢
            rw [anyDirty_false] at h2 ⊢
            intro c hcm
            obtain ⟨c', hc', rfl⟩ := List.mem_map.mp hcm
            exact ih c' _ _ _ (h2 c' hc')
          · simp [hk]

mutual
/-- Nothing to do: every visible widget reports that it is clean. -/
def W.Quiet : W → Prop
  | .node a cs => a.visible = true → (W.node a cs).isDirty = false ∧ AllQuiet cs
/-- `Quiet` for the children. -/
def AllQuiet : List W → Prop
  | [] => True
  | c :: cs => c.Quiet ∧ AllQuiet cs
end

theorem allQuiet_mem {cs : List W} : AllQuiet cs ↔ ∀ c ∈ cs, c.Quiet := by
  induction cs with
  | nil => simp [AllQuiet]
  | cons c cs ih => simp [AllQuiet, ih]

theorem passN_quiet (cas : Cascade) : ∀ (n : Nat) (w : W) (anc : List Css.Widget) (pd : Bool)
    (inh : Inherited), w.depth ≤ n → (passN cas n anc pd inh w).Quiet := by
  intro n
  induction n with
  | zero =>
    intro w _ _ _ hd
    cases w with
    | node a cs => simp [W.depth] at hd
  | succ n ih =>
    intro w anc pd inh hd
    cases w with
    | node a cs =>
      have hd' : depthAll cs ≤ n := by
        rw [W.depth] at hd
        exact Nat.le_of_succ_le_succ hd
      rw [passN_succ]
      cases hv : a.visible with
      | false =>
        rw [if_pos (by rfl)]
        intro hv'
        rw [hv] at hv'
        cases hv'
      | true =>
        rw [if_neg (by decide)]
        cases hr : ((W.node a cs).isDirty || pd) with
        | true =>
          rw [if_pos rfl]
          intro _
          refine ⟨?_, ?_⟩
          · rw [isDirty_eq, restyled_dirty, Bool.false_or, restyled_kind]
            by_cases hk : a.kind = .group
            · simp only [hk, decide_true, Bool.true_and]
              rw [anyDirty_false]
              intro c hcm
              obtain ⟨c', hc', rfl⟩ := List.mem_map.mp hcm
              exact passN_isDirty cas n c' _ _ _ (anyDirty_false.mp (anyDirty_kept a cs hk) c' hc')
            · simp [hk]
          · rw [allQuiet_mem]
            intro c hcm
            obtain ⟨c', hc', rfl⟩ := List.mem_map.mp hcm
            exact ih c' _ _ _ (depth_mem.mp ((keptChildren_facts a cs).1 ▸ hd') c' hc')
        | false =>
          rw [if_neg (by decide)]
          obtain ⟨hr1, hr2⟩ := Bool.or_eq_false_iff.mp hr
          intro _
          refine ⟨?_, ?_⟩
          · have := passN_isDirty cas (n + 1) (.node a cs) anc false inh hr1
            rw [passN_succ, if_neg (by rw [hv]; decide), if_neg (by rw [hr1]; decide)] at this
            exact this
          · rw [allQuiet_mem]
            intro c hcm
            obtain ⟨c', hc', rfl⟩ := List.mem_map.mp hcm
            exact ih c' _ _ _ (depth_mem.mp hd' c' hc')

theorem passN_idle (cas : Cascade) : ∀ (n : Nat) (w : W) (anc : List Css.Widget) (inh : Inherited),
    w.Quiet → passN cas n anc false inh w = w := by
  intro n
  induction n with
  | zero => intro w _ _ _; cases w; rfl
  | succ n ih =>
    intro w anc inh h
    cases w with
    | node a cs =>
      rw [passN_succ]
      cases hv : a.visible with
      | false => rw [if_pos (by rfl)]
      | true =>
        obtain ⟨h1, h2⟩ := h hv
        rw [if_neg (by decide), if_neg (by rw [h1]; decide)]
        congr 1
        conv_rhs => rw [← List.map_id cs]
        exact List.map_congr_left fun c hc => ih c _ _ (allQuiet_mem.mp h2 c hc)

/-- Calls that mark the widget dirty keep the invariant at every path. -/
theorem update_inv {cas : Cascade} {f : W → W}
    (hf : ∀ w anc inh, w.Inv cas anc inh → (f w).Inv cas anc inh) : ∀ (p : List Nat) (w : W)
    (anc : List Css.Widget) (inh : Inherited), w.Inv cas anc inh → (w.update f p).Inv cas anc inh := by
  intro p
  induction p with
  | nil => intro w anc inh h; exact hf w anc inh h
  | cons i p ih =>
    intro w anc inh h
    cases w with
    | node a cs =>
      rw [W.update]
      intro hv hd
      obtain ⟨h1, h2⟩ := h hv hd
      refine ⟨h1, ?_⟩
      rw [allInv_mem] at h2 ⊢
      intro c hcm
      rw [List.mem_iff_getElem?] at hcm
      obtain ⟨j, hj⟩ := hcm
      rw [List.getElem?_modify] at hj
      rcases hg : cs[j]? with _ | d
      · rw [hg] at hj; simp at hj
      · rw [hg] at hj
        have hd := h2 d (List.mem_of_getElem? hg)
        split at hj
        · cases hj
          exact ih d _ _ hd
        · cases hj
          exact hd

theorem update_stores {f : W → W} (hf : ∀ w, w.Stores → (f w).Stores) : ∀ (p : List Nat) (w : W),
    w.Stores → (w.update f p).Stores := by
  intro p
  induction p with
  | nil => intro w h; exact hf w h
  | cons i p ih =>
    intro w h
    cases w with
    | node a cs =>
      rw [W.update]
      refine stores_node rfl (fun hcs => ?_) h
      rw [allStore_mem] at hcs ⊢
      intro c hcm
      rw [List.mem_iff_getElem?] at hcm
      obtain ⟨j, hj⟩ := hcm
      rw [List.getElem?_modify] at hj
      rcases hg : cs[j]? with _ | d
      · rw [hg] at hj; simp at hj
      · rw [hg] at hj
        have hd := hcs d (List.mem_of_getElem? hg)
        split at hj
        · cases hj
          exact ih d hd
        · cases hj
          exact hd

theorem inv_dirty {cas : Cascade} {anc : List Css.Widget} {inh : Inherited} {a : Attrs} {cs : List W}
    (h : a.dirty = true) : (W.node a cs).Inv cas anc inh := by
  intro _ hd
  rw [h] at hd
  cases hd

/-- A setter changes nothing or marks the widget dirty. -/
theorem setter_dirty (s : Setter) (a : Attrs) : s.apply a = a ∨ (s.apply a).dirty = true := by
  cases s <;> unfold Setter.apply <;>
    first
    | exact Or.inr rfl
    | (dsimp only; split <;> first | exact Or.inl rfl | exact Or.inr rfl)

theorem setter_kind (s : Setter) (a : Attrs) : (s.apply a).kind = a.kind := by
  cases s <;> simp only [Setter.apply] <;> first | rfl | (split <;> rfl)

theorem set_inv {cas : Cascade} (s : Setter) (w : W) (anc : List Css.Widget) (inh : Inherited)
    (h : w.Inv cas anc inh) : (W.set s w).Inv cas anc inh := by
  cases w with
  | node a cs =>
    rw [W.set]
    rcases setter_dirty s a with e | e
    · rw [e]; exact h
    · exact inv_dirty e

theorem markDirty_inv {cas : Cascade} (w : W) (anc : List Css.Widget) (inh : Inherited) :
    w.markDirty.Inv cas anc inh := by
  cases w with
  | node a cs =>
    rw [W.markDirty]
    split <;> exact inv_dirty rfl

theorem setChildren_inv {cas : Cascade} (new : List W) (w : W) (anc : List Css.Widget)
    (inh : Inherited) : (W.setChildren new w).Inv cas anc inh := by
  cases w with
  | node a cs => exact inv_dirty rfl

theorem step_inv {cas : Cascade} (hc : Settled cas) (inh : Inherited) (w : W) (e : Ev)
    (he : e.Stores) (hs : w.Stores) (hi : w.Inv cas [] inh) :
    (step cas inh w e).Stores ∧ (step cas inh w e).Inv cas [] inh := by
  cases e with
  | call p s =>
    refine ⟨update_stores (fun w h => ?_) p w hs, update_inv (set_inv s) p w [] inh hi⟩
    cases w with
    | node a cs => exact stores_node (setter_kind s a) id h
  | markDirty p =>
    exact ⟨update_stores (fun w h => (stores_markDirty w).mpr h) p w hs,
      update_inv (fun w anc inh _ => markDirty_inv w anc inh) p w [] inh hi⟩
  | setChildren p new =>
    refine ⟨update_stores (fun w h => ?_) p w hs,
      update_inv (fun w anc inh _ => setChildren_inv new w anc inh) p w [] inh hi⟩
    cases w with
    | node a cs => exact ⟨h.1, he⟩
  | frame =>
    exact ⟨passN_stores cas _ w _ _ _ hs,
      inv_of_exact cas _ _ _ (passN_exact hc _ w _ _ _ hs (Nat.le_refl _) (fun _ => hi))⟩

theorem run_inv {cas : Cascade} (hc : Settled cas) (inh : Inherited) (evs : List Ev) : ∀ (w : W),
    w.Stores → w.Inv cas [] inh → (∀ e ∈ evs, e.Stores) →
    (evs.foldl (step cas inh) w).Stores ∧ (evs.foldl (step cas inh) w).Inv cas [] inh := by
  induction evs with
  | nil => intro w h1 h2 _; exact ⟨h1, h2⟩
  | cons e evs ih =>
    intro w h1 h2 he
    obtain ⟨k1, k2⟩ := step_inv hc inh w e (he e (List.mem_cons_self ..)) h1 h2
    exact ih _ k1 k2 fun e' he' => he e' (List.mem_cons_of_mem _ he')

end Textual.Restyle
