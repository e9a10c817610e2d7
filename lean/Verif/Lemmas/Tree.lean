import Mathlib.Tactic.Common
import Verif.Spec.Tree

/-! Lemmas about widget trees. -/

namespace Textual.Tree.W

theorem induct {P : W → Prop} (h : ∀ k a cs, (∀ c ∈ cs, P c) → P (node k a cs)) : ∀ w, P w
  | node k a cs => h k a cs (fun c hc => by
      have := List.sizeOf_lt_of_mem hc
      exact induct h c)
termination_by w => sizeOf w
decreasing_by simp_wf; omega

/-! ### Equations through `exposed` -/

theorem paths_eq (w : W) : w.paths = [] :: pathsIn 0 w.exposed := by
  cases w with | node k a cs => cases k <;> simp [paths, exposed, pathsIn]

theorem exposed_subset (w : W) : ∀ c ∈ w.exposed, c ∈ w.children := by
  cases w with | node k a cs => cases k <;> simp [exposed, children]

theorem induct' {P : W → Prop} (h : ∀ w, (∀ c ∈ w.exposed, P c) → P w) (w : W) : P w := by
  induction w using induct with
  | h k a cs ih => exact h _ (fun c hc => ih c (exposed_subset (node k a cs) c hc))

theorem at?_cons (w : W) (i : Nat) (p : List Nat) : w.at? (i :: p) = (w.exposed[i]?).bind (·.at? p) := by
  rw [at?]
  cases w.exposed[i]? <;> rfl

theorem mem_pathsIn (cs : List W) (i0 : Nat) (p : List Nat) :
    p ∈ pathsIn i0 cs ↔ ∃ j q c, p = (i0 + j) :: q ∧ cs[j]? = some c ∧ q ∈ c.paths := by
  induction cs generalizing i0 with
  | nil => simp [pathsIn]
  | cons c cs ih =>
    rw [pathsIn, List.mem_append, ih]
    constructor
    · rintro (h | ⟨j, q, d, rfl, h2, h3⟩)
      · obtain ⟨q, hq, rfl⟩ := List.mem_map.1 h
        exact ⟨0, q, c, rfl, rfl, hq⟩
      · exact ⟨j + 1, q, d, by rw [show i0 + (j + 1) = i0 + 1 + j by omega], by simpa using h2, h3⟩
    · rintro ⟨j, q, d, rfl, h2, h3⟩
      cases j with
      | zero =>
        simp at h2
        subst h2
        exact Or.inl (List.mem_map.2 ⟨q, h3, rfl⟩)
      | succ j =>
        exact Or.inr ⟨j, q, d, by rw [show i0 + (j + 1) = i0 + 1 + j by omega], by simpa using h2, h3⟩

theorem mem_paths (w : W) (p : List Nat) : p ∈ w.paths ↔ (w.at? p).isSome := by
  induction w using induct' generalizing p with
  | h w ih =>
    rw [paths_eq]
    cases p with
    | nil => simp [at?]
    | cons i p =>
      rw [at?_cons]
      simp only [List.mem_cons, reduceCtorEq, false_or, mem_pathsIn, Nat.zero_add, List.cons.injEq]
      constructor
      · rintro ⟨j, q, c, ⟨rfl, rfl⟩, h2, h3⟩
        rw [h2]
        exact (ih c (List.mem_of_getElem? h2) p).1 h3
      · intro h
        cases hc : w.exposed[i]? with
        | none => rw [hc] at h; simp at h
        | some c =>
          rw [hc] at h
          exact ⟨i, p, c, ⟨rfl, rfl⟩, hc, (ih c (List.mem_of_getElem? hc) p).2 h⟩

theorem paths_sorted (w : W) : w.paths.Pairwise (· < ·) := by
  induction w using induct' with
  | h w ih =>
    rw [paths_eq, List.pairwise_cons]
    refine ⟨?_, ?_⟩
    · intro p hp
      obtain ⟨j, q, c, rfl, -, -⟩ := (mem_pathsIn _ _ _).1 hp
      exact List.nil_lt_cons _ _
    · have key : ∀ (cs : List W) (i0 : Nat), (∀ c ∈ cs, c.paths.Pairwise (· < ·)) →
          (pathsIn i0 cs).Pairwise (· < ·) := by
        intro cs
        induction cs with
        | nil => intro i0 _; simp [pathsIn]
        | cons c cs ih2 =>
          intro i0 h
          rw [pathsIn, List.pairwise_append]
          refine ⟨?_, ih2 _ (fun d hd => h d (by simp [hd])), ?_⟩
          · rw [List.pairwise_map]
            exact (h c (by simp)).imp (fun hh => by rw [List.cons_lt_cons_iff]; exact Or.inr ⟨rfl, hh⟩)
          · intro p hp q hq
            obtain ⟨p', _, rfl⟩ := List.mem_map.1 hp
            obtain ⟨j, q', _, rfl, _, _⟩ := (mem_pathsIn _ _ _).1 hq
            rw [List.cons_lt_cons_iff]
            exact Or.inl (by omega)
      exact key _ 0 ih

theorem paths_nodup (w : W) : w.paths.Nodup := by
  refine (paths_sorted w).imp ?_
  intro a b h e
  subst e
  exact absurd h (List.lt_irrefl _)

theorem has_cons (w : W) (test : Attrs → Bool) (i : Nat) (p : List Nat) :
    w.has test (i :: p) = (w.exposed[i]?).any (·.has test p) := by
  unfold has
  rw [at?_cons]
  cases w.exposed[i]? <;> rfl

theorem reach_cons (w : W) (i : Nat) (p : List Nat) :
    w.reach (i :: p) = (w.exposed[i]?).any (fun c => w.lets c && c.reach p) := by
  rw [reach]
  cases w.exposed[i]? <;> rfl

theorem shown_cons (w : W) (i : Nat) (p : List Nat) :
    w.shown (i :: p) = (w.participates && (w.exposed[i]?).any (·.shown p)) := by
  rw [shown]
  cases w.exposed[i]? <;> rfl

/-! ### Filters of the document order -/

/-- A predicate on paths given per child. -/
def filterIn (P : W → List Nat → Bool) : Nat → List W → List (List Nat)
  | _, [] => []
  | i, c :: cs => (c.paths.filter (P c)).map (i :: ·) ++ filterIn P (i + 1) cs

theorem filterIn_eq (P : W → List Nat → Bool) (Q : List Nat → Bool) (cs : List W) (i0 : Nat)
    (h : ∀ (j : Nat) c p, cs[j]? = some c → Q ((i0 + j) :: p) = P c p) :
    (pathsIn i0 cs).filter Q = filterIn P i0 cs := by
  induction cs generalizing i0 with
  | nil => rfl
  | cons c cs ih =>
    rw [pathsIn, filterIn, List.filter_append, ih (i0 + 1), List.filter_map]
    · congr 2
      apply List.filter_congr
      intro p _
      exact h 0 c p rfl
    · intro j d p hj
      rw [← h (j + 1) d p (by simpa using hj)]
      congr 2
      omega

/-- The ring below a widget. -/
theorem ring_eq (w : W) :
    w.ring = (if w.attrs.focusable then [[]] else []) ++
      filterIn (fun c p => w.lets c && (c.reach p && c.has (·.focusable) p)) 0 w.exposed := by
  unfold ring
  rw [paths_eq, List.filter_cons,
    filterIn_eq (fun c p => w.lets c && (c.reach p && c.has (·.focusable) p))]
  · simp only [reach, has, at?, Option.any_some, Bool.true_and]
    split <;> simp_all
  · intro j c p hj
    rw [Nat.zero_add, reach_cons, has_cons, hj]
    simp only [Option.any_some, Bool.and_assoc]

theorem filterIn_lets (w : W) (cs : List W) (i0 : Nat) :
    filterIn (fun c p => w.lets c && (c.reach p && c.has (·.focusable) p)) i0 cs =
      match cs with
      | [] => []
      | c :: cs => (if w.lets c then c.ring.map (i0 :: ·) else []) ++
          filterIn (fun c p => w.lets c && (c.reach p && c.has (·.focusable) p)) (i0 + 1) cs := by
  cases cs with
  | nil => rfl
  | cons c cs =>
    dsimp only
    rw [filterIn]
    congr 1
    cases hl : w.lets c with
    | false => simp
    | true => simp [ring]

/-- The ring below the children. -/
def ringIn (ok : W → Bool) : Nat → List W → List (List Nat)
  | _, [] => []
  | i, c :: cs => (if ok c then c.ring.map (i :: ·) else []) ++ ringIn ok (i + 1) cs

theorem ringIn_eq (w : W) (cs : List W) (i0 : Nat) :
    filterIn (fun c p => w.lets c && (c.reach p && c.has (·.focusable) p)) i0 cs = ringIn w.lets i0 cs := by
  induction cs generalizing i0 with
  | nil => rfl
  | cons c cs ih => rw [filterIn_lets]; dsimp only; rw [ringIn, ih]

theorem ring_eq' (w : W) :
    w.ring = (if w.attrs.focusable then [[]] else []) ++ ringIn w.lets 0 w.exposed := by
  rw [ring_eq, ringIn_eq]

theorem ringIn_none (i : Nat) (cs : List W) : ringIn (fun _ => false) i cs = [] := by
  induction cs generalizing i with
  | nil => rfl
  | cons c cs ih => simp [ringIn, ih]

theorem ring_own (k : Kind) (hk : takesFocus k = true) (a : Attrs) (cs : List W) :
    (node k a cs).ring = if a.focusable then [[]] else [] := by
  rw [ring_eq', show (node k a cs).lets = fun _ => false from ?_, ringIn_none, List.append_nil]
  · rfl
  · funext c
    cases k <;> simp_all [takesFocus, lets, kind]

/-! ### `Ok` -/

theorem Ok.child {w c : W} (h : w.Ok) (hc : c ∈ w.exposed) : c.Ok := by
  obtain ⟨i, hi, e⟩ := List.mem_iff_getElem.1 hc
  intro p d hp
  refine h (i :: p) d ?_
  rw [at?_cons, List.getElem?_eq_getElem hi, e]
  exact hp

theorem Ok.root {w : W} (h : w.Ok) :
    (w.attrs.focusable = true → takesFocus w.kind = true) ∧ (w.attrs.focused = true → takesFocus w.kind = true) ∧
    (w.kind = .wrapper → w.children.length = 1) :=
  h [] w rfl

theorem ring_box {w : W} (h : w.Ok) (hk : takesFocus w.kind = false) : w.ring = ringIn w.lets 0 w.exposed := by
  rw [ring_eq']
  have : w.attrs.focusable = false := by
    cases hf : w.attrs.focusable with
    | false => rfl
    | true => rw [h.root.1 hf] at hk; cases hk
  rw [this]
  rfl

theorem countParticipating_eq (cs : List W) (i0 : Nat) (h : ∀ c ∈ cs, c.countFocusable = c.ring.length) :
    countParticipating cs = (ringIn participates i0 cs).length := by
  induction cs generalizing i0 with
  | nil => rfl
  | cons c cs ih =>
    rw [countParticipating, ringIn, List.length_append, ih (i0 + 1) (fun d hd => h d (by simp [hd])), h c (by simp)]
    split <;> simp

theorem count_eq (w : W) (h : w.Ok) : w.countFocusable = w.ring.length := by
  induction w using induct' with
  | h w ih =>
    have ih' : ∀ c ∈ w.exposed, c.countFocusable = c.ring.length := fun c hc => ih c hc (h.child hc)
    cases w with
    | node k a cs =>
      cases k with
      | leaf => rw [ring_own _ rfl, countFocusable]; split <;> rfl
      | press => rw [ring_own _ rfl, countFocusable]; split <;> rfl
      | palette => rw [ring_own _ rfl, countFocusable]; split <;> rfl
      | wrapper =>
        rw [ring_box h rfl]
        match cs, h, ih' with
        | [c], h, ih' =>
          rw [countFocusable, ih' c (by simp [exposed])]
          simp only [exposed, ringIn, lets, kind, List.append_nil]
          split <;> simp_all
        | [], h, _ => exact absurd (h.root.2.2 rfl) (by simp [children])
        | _ :: _ :: _, h, _ => exact absurd (h.root.2.2 rfl) (by simp [children])
      | container => rw [ring_box h rfl]; exact countParticipating_eq cs 0 ih'
      | screen => rw [ring_box h rfl]; exact countParticipating_eq cs 0 ih'
      | app => rw [ring_box h rfl]; exact countParticipating_eq cs 0 ih'

/-! ### `focusNth` -/

/-- The focus given to one widget. -/
abbrev giveFocus (a : Attrs) : Attrs := { a with focused := true }

theorem focusNthIn_eq (cs : List W) (h : ∀ c ∈ cs, c.countFocusable = c.ring.length)
    (hf : ∀ c ∈ cs, ∀ n p, c.ring[n]? = some p → c.focusNth n = (modifyAt giveFocus c p, true)) :
    ∀ (n i0 : Nat), n < (ringIn participates i0 cs).length →
      ∃ j p, (ringIn participates i0 cs)[n]? = some ((i0 + j) :: p) ∧
        focusNthIn cs n = (cs.modify j (modifyAt giveFocus · p), true) := by
  induction cs with
  | nil => intro n i0 hn; simp [ringIn] at hn
  | cons c cs ih =>
    intro n i0 hn
    rw [ringIn] at hn ⊢
    have ih := ih (fun d hd => h d (by simp [hd])) (fun d hd => hf d (by simp [hd]))
    have hc := h c (by simp)
    rw [focusNthIn]
    by_cases hp : c.participates = true
    · rw [if_pos hp] at hn ⊢
      rw [if_pos hp]
      by_cases hlt : n < c.countFocusable
      · rw [if_pos hlt]
        rw [hc] at hlt
        refine ⟨0, c.ring[n], ?_, ?_⟩
        · rw [List.getElem?_append_left (by simpa using hlt)]
          simp [hlt]
        · dsimp only
          rw [hf c (by simp) n c.ring[n] (List.getElem?_eq_getElem hlt)]
          rfl
      · rw [if_neg hlt]
        rw [hc] at hlt
        rw [List.length_append, List.length_map] at hn
        obtain ⟨j, p, e1, e2⟩ := ih (n - c.ring.length) (i0 + 1) (by omega)
        refine ⟨j + 1, p, ?_, ?_⟩
        · rw [List.getElem?_append_right (by simpa using Nat.le_of_not_lt hlt), List.length_map, e1]
          congr 2
          omega
        · dsimp only
          rw [hc, e2]
          rfl
    · rw [if_neg hp] at hn ⊢
      rw [if_neg hp]
      rw [List.nil_append] at hn ⊢
      obtain ⟨j, p, e1, e2⟩ := ih n (i0 + 1) hn
      refine ⟨j + 1, p, ?_, ?_⟩
      · rw [e1]
        congr 2
        omega
      · dsimp only
        rw [e2]
        rfl

theorem focusNth_eq (w : W) (h : w.Ok) (n : Nat) (p : List Nat) (hn : w.ring[n]? = some p) :
    w.focusNth n = (modifyAt giveFocus w p, true) := by
  induction w using induct' generalizing n p with
  | h w ih =>
    have hc : ∀ c ∈ w.exposed, c.countFocusable = c.ring.length := fun c hc => count_eq c (h.child hc)
    have ih' : ∀ c ∈ w.exposed, ∀ n p, c.ring[n]? = some p → c.focusNth n = (modifyAt giveFocus c p, true) :=
      fun c hc n p => ih c hc (h.child hc) n p
    have own : ∀ {k : Kind} {a : Attrs} {cs : List W}, takesFocus k = true → (node k a cs).ring[n]? = some p →
        a.focusable = true ∧ n = 0 ∧ p = [] := by
      intro k a cs hk hr
      rw [ring_own k hk] at hr
      split at hr
      · rename_i hf
        cases n with
        | zero => simp at hr; exact ⟨hf, rfl, hr⟩
        | succ n => simp at hr
      · simp at hr
    cases w with
    | node k a cs =>
      have box : ∀ (_ : takesFocus k = false) (_ : (node k a cs).lets = participates) (_ : (node k a cs).exposed = cs)
          (_ : ∀ m, (node k a cs).focusNth m = (node k a (focusNthIn cs m).1, (focusNthIn cs m).2))
          (_ : ∀ j q, modifyAt giveFocus (node k a cs) (j :: q) = node k a (cs.modify j (modifyAt giveFocus · q))),
          (node k a cs).focusNth n = (modifyAt giveFocus (node k a cs) p, true) := by
        intro hk hl he hf hm
        rw [ring_box h hk, hl, he] at hn
        rw [he] at hc ih'
        obtain ⟨j, q, e1, e2⟩ := focusNthIn_eq cs hc ih' n 0 (by
          rw [List.getElem?_eq_some_iff] at hn
          exact hn.1)
        rw [hn, Nat.zero_add] at e1
        cases e1
        rw [hf, e2, hm]
      cases k with
      | leaf =>
        obtain ⟨h1, rfl, rfl⟩ := own rfl hn
        rw [focusNth, if_pos ⟨h1, rfl⟩]
        rfl
      | press =>
        obtain ⟨h1, rfl, rfl⟩ := own rfl hn
        rw [focusNth, if_pos rfl]
        rfl
      | palette =>
        obtain ⟨h1, rfl, rfl⟩ := own rfl hn
        rw [focusNth, if_pos ⟨h1, rfl⟩]
        rfl
      | wrapper =>
        rw [ring_box h rfl] at hn
        match cs, h, ih', hn with
        | [c], h, ih', hn =>
          replace hn : (if c.attrs.visible = true then c.ring.map (0 :: ·) else [])[n]? = some p := by
            rw [← hn]
            simp only [exposed, ringIn, List.append_nil]
            rfl
          by_cases hv : c.attrs.visible = true
          · rw [if_pos hv, List.getElem?_map] at hn
            cases hr : c.ring[n]? with
            | none => rw [hr] at hn; simp at hn
            | some q =>
              rw [hr] at hn
              simp at hn
              subst hn
              rw [focusNth, if_pos hv]
              dsimp only
              rw [ih' c (by simp [exposed]) n q hr]
              rfl
          · rw [if_neg hv] at hn; simp at hn
        | [], h, _, _ => exact absurd (h.root.2.2 rfl) (by simp [children])
        | _ :: _ :: _, h, _, _ => exact absurd (h.root.2.2 rfl) (by simp [children])
      | container => exact box rfl rfl rfl (fun m => by rw [focusNth]) (fun j q => rfl)
      | screen => exact box rfl rfl rfl (fun m => by rw [focusNth]) (fun j q => rfl)
      | app => exact box rfl rfl rfl (fun m => by rw [focusNth]) (fun j q => rfl)

/-! ### Equations through `exposed`, continued -/

theorem findFocusPath_eq (w : W) (n : Nat) :
    w.findFocusPath n = if w.attrs.focusable = true ∧ n = 0 then (some [], n)
      else findFocusPathIn 0 w.exposed (if w.attrs.focusable then n - 1 else n) := by
  cases w with
  | node k a cs => cases k <;> (rw [findFocusPath]; rfl)

theorem findFocusIndexById_eq (w : W) (id : String) (i : Nat) :
    w.findFocusIndexById id i = if !w.participates then (none, i)
      else if w.attrs.focusable = true ∧ w.attrs.id = some id then (some i, i)
      else findFocusIndexByIdIn w.exposed id (if w.attrs.focusable then i + 1 else i) := by
  cases w with
  | node k a cs => cases k <;> (rw [findFocusIndexById]; rfl)

theorem unfocused_attrs (w : W) : w.unfocused.attrs = { w.attrs with focused := false } := by
  cases w; rfl

theorem unfocused_kind (w : W) : w.unfocused.kind = w.kind := by
  cases w; rfl

theorem unfocusedIn_eq (cs : List W) : unfocusedIn cs = cs.map unfocused := by
  induction cs with
  | nil => rfl
  | cons c cs ih => rw [unfocusedIn, ih]; rfl

theorem unfocused_exposed (w : W) : w.unfocused.exposed = w.exposed.map unfocused := by
  cases w with
  | node k a cs => cases k <;> simp [unfocused, exposed, unfocusedIn_eq]

theorem clearParticipating_eq (cs : List W) :
    clearParticipating cs = cs.map fun c => if c.participates then c.clearFocus else c := by
  induction cs with
  | nil => rfl
  | cons c cs ih => rw [clearParticipating, ih]; rfl

theorem clearFocus_kind (w : W) : w.clearFocus.kind = w.kind := by
  cases w with
  | node k a cs => cases k <;> first | rfl | (cases cs <;> rfl)

theorem clearFocus_attrs (w : W) :
    w.clearFocus.attrs = if takesFocus w.kind then { w.attrs with focused := false } else w.attrs := by
  cases w with
  | node k a cs => cases k <;> first | rfl | (cases cs <;> rfl)

theorem clearFocus_exposed (w : W) (h : w.Ok) :
    w.clearFocus.exposed = w.exposed.map fun c => if w.lets c then c.clearFocus else c := by
  cases w with
  | node k a cs =>
    cases k with
    | leaf => rfl
    | press => rfl
    | palette => simp [clearFocus, exposed, lets, kind]
    | wrapper =>
      match cs, h with
      | [c], h => rfl
      | [], h => exact absurd (h.root.2.2 rfl) (by simp [children])
      | _ :: _ :: _, h => exact absurd (h.root.2.2 rfl) (by simp [children])
    | container => simp only [clearFocus, exposed, clearParticipating_eq]; rfl
    | screen => simp only [clearFocus, exposed, clearParticipating_eq]; rfl
    | app => simp only [clearFocus, exposed, clearParticipating_eq]; rfl

/-! ### What does not depend on the focus -/

theorem unfocused_at? (w : W) (p : List Nat) : w.unfocused.at? p = (w.at? p).map unfocused := by
  induction p generalizing w with
  | nil => rfl
  | cons i p ih =>
    rw [at?_cons, at?_cons, unfocused_exposed, List.getElem?_map]
    cases w.exposed[i]? with
    | none => rfl
    | some c => simp [ih c]

theorem unfocused_has (w : W) (test : Attrs → Bool) (ht : ∀ a, test { a with focused := false } = test a)
    (p : List Nat) : w.unfocused.has test p = w.has test p := by
  unfold has
  rw [unfocused_at?]
  cases w.at? p with
  | none => rfl
  | some c => simp [unfocused_attrs, ht]

theorem pathsIn_congr (f : W → W) (cs : List W) (i : Nat) (h : ∀ c ∈ cs, (f c).paths = c.paths) :
    pathsIn i (cs.map f) = pathsIn i cs := by
  induction cs generalizing i with
  | nil => rfl
  | cons c cs ih =>
    rw [List.map_cons, pathsIn, pathsIn, h c (by simp), ih (i + 1) (fun d hd => h d (by simp [hd]))]

theorem unfocused_paths (w : W) : w.unfocused.paths = w.paths := by
  induction w using induct' with
  | h w ih => rw [paths_eq, paths_eq w, unfocused_exposed, pathsIn_congr _ _ _ ih]

theorem unfocused_participates (w : W) : w.unfocused.participates = w.participates := by
  unfold participates; rw [unfocused_attrs]

theorem unfocused_lets (w c : W) : w.unfocused.lets c.unfocused = w.lets c := by
  unfold lets
  rw [unfocused_kind, unfocused_participates, unfocused_attrs]

theorem unfocused_reach (w : W) (p : List Nat) : w.unfocused.reach p = w.reach p := by
  induction p generalizing w with
  | nil => rfl
  | cons i p ih =>
    rw [reach_cons, reach_cons, unfocused_exposed, List.getElem?_map]
    cases w.exposed[i]? with
    | none => rfl
    | some c => simp [ih c, unfocused_lets]

theorem unfocused_shown (w : W) (p : List Nat) : w.unfocused.shown p = w.shown p := by
  induction p generalizing w with
  | nil => simp [shown, unfocused_participates]
  | cons i p ih =>
    rw [shown_cons, shown_cons, unfocused_exposed, List.getElem?_map, unfocused_participates]
    cases w.exposed[i]? with
    | none => rfl
    | some c => simp [ih c]

theorem unfocused_ring (w : W) : w.unfocused.ring = w.ring := by
  unfold ring
  rw [unfocused_paths]
  apply List.filter_congr
  intro p _
  rw [unfocused_reach, unfocused_has w _ (fun _ => rfl)]

theorem unfocused_idem (w : W) : w.unfocused.unfocused = w.unfocused := by
  induction w using induct with
  | h k a cs ih =>
    have : unfocusedIn (unfocusedIn cs) = unfocusedIn cs := by
      rw [unfocusedIn_eq, unfocusedIn_eq, List.map_map]
      exact List.map_congr_left (fun c hc => ih c hc)
    cases k <;> simp [unfocused, this]

theorem unfocused_modify (w : W) (p : List Nat) : (modifyAt giveFocus w p).unfocused = w.unfocused := by
  induction p generalizing w with
  | nil => cases w; rfl
  | cons i p ih =>
    cases w with
    | node k a cs =>
      have : unfocusedIn (cs.modify i (modifyAt giveFocus · p)) = unfocusedIn cs := by
        rw [unfocusedIn_eq, unfocusedIn_eq]
        apply List.ext_getElem?
        intro j
        rw [List.getElem?_map, List.getElem?_map, List.getElem?_modify]
        cases hj : cs[j]? with
        | none => rfl
        | some c =>
          by_cases hij : i = j
          · simp [hij, ih c]
          · simp [hij]
      cases k <;> simp [modifyAt, unfocused, this]

theorem unfocused_clear (w : W) (h : w.Ok) : w.clearFocus.unfocused = w.unfocused := by
  induction w using induct' with
  | h w ih =>
    have key : w.exposed.map (fun c => unfocused (if w.lets c then c.clearFocus else c)) = w.exposed.map unfocused := by
      apply List.map_congr_left
      intro c hc
      split
      · exact ih c hc (h.child hc)
      · rfl
    have e := clearFocus_exposed w h
    have h1 := unfocused_exposed w.clearFocus
    rw [e, List.map_map] at h1
    cases w with
    | node k a cs =>
      cases k with
      | leaf => rfl
      | press => rfl
      | palette => rfl
      | wrapper =>
        match cs, h, key with
        | [c], h, key =>
          simp only [clearFocus, unfocused, unfocusedIn]
          simp only [exposed, lets, kind, List.map_cons, List.map_nil] at key
          exact congrArg (node Kind.wrapper { a with focused := false }) key
        | [], h, _ => exact absurd (h.root.2.2 rfl) (by simp [children])
        | _ :: _ :: _, h, _ => exact absurd (h.root.2.2 rfl) (by simp [children])
      | container =>
        simp only [clearFocus, unfocused, unfocusedIn_eq, clearParticipating_eq, List.map_map]
        congr 1
      | screen =>
        simp only [clearFocus, unfocused, unfocusedIn_eq, clearParticipating_eq, List.map_map]
        congr 1
      | app =>
        simp only [clearFocus, unfocused, unfocusedIn_eq, clearParticipating_eq, List.map_map]
        congr 1

/-! ### Which widgets are focused -/

theorem clear_focused (w : W) (h : w.Ok) (p : List Nat) :
    w.clearFocus.has (·.focused) p =
      (w.has (·.focused) p && !(w.reach p && (w.at? p).any fun c => takesFocus c.kind)) := by
  induction p generalizing w with
  | nil =>
    unfold has
    simp only [at?, Option.any_some, reach, Bool.true_and, clearFocus_attrs]
    cases takesFocus w.kind <;> simp
  | cons i p ih =>
    rw [has_cons, has_cons, reach_cons, at?_cons, clearFocus_exposed w h, List.getElem?_map]
    cases hc : w.exposed[i]? with
    | none => rfl
    | some c =>
      simp only [Option.map_some, Option.any_some, Option.bind_some]
      cases hl : w.lets c with
      | false => simp
      | true =>
        simp only [if_pos, Bool.true_and]
        exact ih c (h.child (List.mem_of_getElem? hc))

theorem clear_at (w : W) (h : w.Ok) (p : List Nat) :
    (w.clearFocus.at? p).map (·.kind) = (w.at? p).map (·.kind) := by
  induction p generalizing w with
  | nil => simp [at?, clearFocus_kind]
  | cons i p ih =>
    rw [at?_cons, at?_cons, clearFocus_exposed w h, List.getElem?_map]
    cases hc : w.exposed[i]? with
    | none => rfl
    | some c =>
      simp only [Option.map_some, Option.bind_some]
      split
      · exact ih c (h.child (List.mem_of_getElem? hc))
      · rfl

theorem modifyAt_exposed (f : Attrs → Attrs) (w : W) (i : Nat) (p : List Nat) :
    (modifyAt f w (i :: p)).exposed = w.exposed.modify i (modifyAt f · p) := by
  cases w with
  | node k a cs => cases k <;> simp [modifyAt, exposed]

theorem modifyAt_attrs_cons (f : Attrs → Attrs) (w : W) (i : Nat) (p : List Nat) :
    (modifyAt f w (i :: p)).attrs = w.attrs := by
  cases w with
  | node k a cs => cases k <;> rfl

theorem modify_focused (w : W) (p q : List Nat) (hp : (w.at? p).isSome) :
    (modifyAt giveFocus w p).has (·.focused) q = (decide (q = p) || w.has (·.focused) q) := by
  induction p generalizing w q with
  | nil =>
    cases w with
    | node k a cs =>
      cases q with
      | nil => simp [has, at?, modifyAt, attrs]
      | cons j q =>
        rw [has_cons, has_cons]
        have : (modifyAt giveFocus (node k a cs) []).exposed = (node k a cs).exposed := by
          cases k <;> rfl
        rw [this]
        simp
  | cons i p ih =>
    cases q with
    | nil => simp [has, at?, modifyAt_attrs_cons]
    | cons j q =>
      rw [has_cons, has_cons, modifyAt_exposed, List.getElem?_modify]
      rw [at?_cons] at hp
      cases hj : w.exposed[j]? with
      | none =>
        by_cases hij : i = j
        · subst hij; rw [hj] at hp; simp at hp
        · have : ¬ j = i := fun e => hij e.symm
          simp [this]
      | some c =>
        by_cases hij : i = j
        · subst hij
          rw [hj] at hp
          simp [ih c q hp]
        · have : ¬ j = i := fun e => hij e.symm
          simp [hij, this]

theorem Ok_of_unfocused {w w' : W} (h : w.Ok) (e : w'.unfocused = w.unfocused)
    (hf : ∀ p c, w'.at? p = some c → c.attrs.focused = true → takesFocus c.kind = true) : w'.Ok := by
  intro p c' hc'
  have h1 := congrArg (fun x => x.at? p) e
  simp only [unfocused_at?, hc', Option.map_some] at h1
  cases hc : w.at? p with
  | none => rw [hc] at h1; simp at h1
  | some c =>
    rw [hc, Option.map_some, Option.some.injEq] at h1
    have ha := congrArg W.attrs h1
    have hk := congrArg W.kind h1
    rw [unfocused_kind, unfocused_kind] at hk
    rw [unfocused_attrs, unfocused_attrs] at ha
    obtain ⟨o1, o2, o3⟩ := h p c hc
    refine ⟨?_, hf p c' hc', ?_⟩
    · intro hh
      rw [hk]
      apply o1
      have := congrArg Attrs.focusable ha
      simp at this
      rw [← this, hh]
    · intro hw
      rw [hk] at hw
      have hlen := congrArg (fun x => x.exposed.length) h1
      simp only [unfocused_exposed, List.length_map] at hlen
      have e1 : c'.exposed = c'.children := by
        have hw' : c'.kind = .wrapper := hk.trans hw
        clear hc' h1 ha hk hlen
        cases c' with | node k a cs => simp only [kind] at hw'; subst hw'; rfl
      have e2 : c.exposed = c.children := by
        clear hc h1 ha hk hlen o1 o2 o3
        cases c with | node k a cs => simp only [kind] at hw; subst hw; rfl
      rw [← e1, hlen, e2]
      exact o3 hw

/-! ### `findFocusPath` -/

theorem focusables_eq (w : W) :
    w.paths.filter (w.has (·.focusable)) = (if w.attrs.focusable then [[]] else []) ++
      filterIn (fun c p => c.has (·.focusable) p) 0 w.exposed := by
  rw [paths_eq, List.filter_cons, filterIn_eq (fun c p => c.has (·.focusable) p)]
  · simp only [has, at?, Option.any_some]
    split <;> simp_all
  · intro j c p hj
    rw [Nat.zero_add, has_cons, hj]
    rfl

theorem findFocusPath_spec (w : W) :
    (∀ n p, (w.paths.filter (w.has (·.focusable)))[n]? = some p → (w.findFocusPath n).1 = some p) ∧
    (∀ n, (w.paths.filter (w.has (·.focusable))).length ≤ n →
      w.findFocusPath n = (none, n - (w.paths.filter (w.has (·.focusable))).length)) := by
  induction w using induct' with
  | h w ih =>
    have key : ∀ (cs : List W) (i0 : Nat), (∀ c ∈ cs, c ∈ w.exposed) →
        (∀ n p, (filterIn (fun c p => c.has (·.focusable) p) i0 cs)[n]? = some p →
          (findFocusPathIn i0 cs n).1 = some p) ∧
        (∀ n, (filterIn (fun c p => c.has (·.focusable) p) i0 cs).length ≤ n →
          findFocusPathIn i0 cs n = (none, n - (filterIn (fun c p => c.has (·.focusable) p) i0 cs).length)) := by
      intro cs
      induction cs with
      | nil => intro i0 _; simp [filterIn, findFocusPathIn]
      | cons c cs ih2 =>
        intro i0 hsub
        obtain ⟨a1, a2⟩ := ih c (hsub c (by simp))
        obtain ⟨b1, b2⟩ := ih2 (i0 + 1) (fun d hd => hsub d (by simp [hd]))
        rw [show filterIn (fun c p => c.has (·.focusable) p) i0 (c :: cs) =
          (c.paths.filter (c.has (·.focusable))).map (i0 :: ·) ++
            filterIn (fun c p => c.has (·.focusable) p) (i0 + 1) cs from rfl]
        constructor
        · intro n p hp
          rw [findFocusPathIn]
          by_cases hn : n < (c.paths.filter (c.has (·.focusable))).length
          · rw [List.getElem?_append_left (by simpa using hn), List.getElem?_map,
              List.getElem?_eq_getElem hn] at hp
            have := a1 n _ (List.getElem?_eq_getElem hn)
            cases hr : c.findFocusPath n with
            | mk o r =>
              rw [hr] at this
              dsimp only at this
              subst this
              simpa using hp
          · rw [List.getElem?_append_right (by simpa using Nat.le_of_not_lt hn), List.length_map] at hp
            rw [a2 n (Nat.le_of_not_lt hn)]
            exact b1 _ _ hp
        · intro n hn
          rw [List.length_append, List.length_map] at hn ⊢
          rw [findFocusPathIn, a2 n (by omega)]
          dsimp only
          rw [b2 _ (by omega)]
          congr 1
          omega
    obtain ⟨k1, k2⟩ := key w.exposed 0 (fun _ h => h)
    rw [focusables_eq]
    cases hf : w.attrs.focusable with
    | false =>
      simp only [Bool.false_eq_true, if_false, List.nil_append]
      constructor
      · intro n p hp
        rw [findFocusPath_eq, hf]
        simp only [Bool.false_eq_true, false_and, if_false]
        exact k1 n p hp
      · intro n hn
        rw [findFocusPath_eq, hf]
        simp only [Bool.false_eq_true, false_and, if_false]
        exact k2 n hn
    | true =>
      simp only [if_true]
      constructor
      · intro n p hp
        rw [findFocusPath_eq, hf]
        cases n with
        | zero => simpa using hp
        | succ n =>
          simp only [Nat.add_eq_zero_iff, Nat.one_ne_zero, and_false, if_false, if_true, Nat.add_sub_cancel]
          exact k1 n p (by simpa using hp)
      · intro n hn
        rw [findFocusPath_eq, hf]
        cases n with
        | zero => simp at hn
        | succ n =>
          simp only [Nat.add_eq_zero_iff, Nat.one_ne_zero, and_false, if_false, if_true, Nat.add_sub_cancel]
          rw [k2 n (by simp at hn; omega)]
          congr 1
          simp only [List.length_append, List.length_cons, List.length_nil]
          omega

/-! ### `findFocusIndexById` -/

/-- The widgets the search by id counts. -/
def shownRing (w : W) : List (List Nat) := w.paths.filter fun p => w.shown p && w.has (·.focusable) p

theorem shownRing_hidden (w : W) (h : w.participates = false) : w.shownRing = [] := by
  unfold shownRing
  rw [List.filter_eq_nil_iff]
  intro p _
  cases p with
  | nil => simp [shown, h]
  | cons i p => simp [shown_cons, h]

/-- The widgets the search by id counts below the children. -/
def shownIn : Nat → List W → List (List Nat)
  | _, [] => []
  | i, c :: cs => c.shownRing.map (i :: ·) ++ shownIn (i + 1) cs

theorem shownRing_eq (w : W) (h : w.participates = true) :
    w.shownRing = (if w.attrs.focusable then [[]] else []) ++ shownIn 0 w.exposed := by
  have : ∀ (cs : List W) (i0 : Nat),
      filterIn (fun c p => c.shown p && c.has (·.focusable) p) i0 cs = shownIn i0 cs := by
    intro cs
    induction cs with
    | nil => intro i0; rfl
    | cons c cs ih => intro i0; rw [filterIn, shownIn, ih]; rfl
  unfold shownRing
  rw [paths_eq, List.filter_cons, filterIn_eq (fun c p => c.shown p && c.has (·.focusable) p), this]
  · simp only [shown, has, at?, Option.any_some, h, Bool.true_and]
    split <;> simp_all
  · intro j c p hj
    rw [Nat.zero_add, shown_cons, has_cons, hj, h]
    simp

theorem findFocusIndexById_spec (w : W) (id : String) (i : Nat) :
    (match w.shownRing.findIdx? (w.has (·.id = some id)) with
      | some k => (w.findFocusIndexById id i).1 = some (i + k)
      | none => w.findFocusIndexById id i = (none, i + w.shownRing.length)) := by
  induction w using induct' generalizing i with
  | h w ih =>
    have key : ∀ (cs : List W) (i0 j0 : Nat), w.exposed.drop j0 = cs →
        (match (shownIn j0 cs).findIdx? (w.has (·.id = some id)) with
          | some k => (findFocusIndexByIdIn cs id i0).1 = some (i0 + k)
          | none => findFocusIndexByIdIn cs id i0 = (none, i0 + (shownIn j0 cs).length)) := by
      intro cs
      induction cs with
      | nil => intro i0 j0 _; simp [shownIn, findFocusIndexByIdIn]
      | cons c cs ih2 =>
        intro i0 j0 hdrop
        have hj : w.exposed[j0]? = some c := by
          have := congrArg (fun l => l[0]?) hdrop
          simpa using this
        have hd : w.exposed.drop (j0 + 1) = cs := by
          have := congrArg (List.drop 1) hdrop
          simpa [List.drop_drop] using this
        have a := ih c (List.mem_of_getElem? hj) i0
        rw [shownIn, List.findIdx?_append, List.findIdx?_map]
        have e : (w.has (·.id = some id) ∘ (j0 :: ·)) = c.has (·.id = some id) := by
          funext p
          simp only [Function.comp, has_cons, hj, Option.any_some]
        rw [e]
        cases hf : c.shownRing.findIdx? (c.has (·.id = some id)) with
        | some k =>
          rw [hf] at a
          dsimp only at a
          simp only [Option.some_or]
          rw [findFocusIndexByIdIn]
          cases hr : c.findFocusIndexById id i0 with
          | mk o r =>
            rw [hr] at a
            dsimp only at a
            subst a
            rfl
        | none =>
          rw [hf] at a
          dsimp only at a
          simp only [Option.none_or]
          rw [findFocusIndexByIdIn, a]
          dsimp only
          have b := ih2 (i0 + c.shownRing.length) (j0 + 1) hd
          cases hg : (shownIn (j0 + 1) cs).findIdx? (w.has (·.id = some id)) with
          | some k =>
            rw [hg] at b
            dsimp only at b ⊢
            simp only [Option.map_some]
            rw [b]
            congr 1
            rw [List.length_map]
            omega
          | none =>
            rw [hg] at b
            dsimp only at b ⊢
            simp only [Option.map_none]
            rw [b]
            congr 1
            rw [List.length_append, List.length_map]
            omega
    rw [findFocusIndexById_eq]
    cases hp : w.participates with
    | false => rw [shownRing_hidden w hp]; simp
    | true =>
      rw [shownRing_eq w hp]
      simp only [Bool.not_true, Bool.false_eq_true, if_false]
      cases hf : w.attrs.focusable with
      | false =>
        simp only [Bool.false_eq_true, false_and, if_false, List.nil_append]
        exact key w.exposed i 0 rfl
      | true =>
        simp only [if_true, true_and]
        by_cases hid : w.attrs.id = some id
        · rw [if_pos hid]
          have : w.has (·.id = some id) [] = true := by simp [has, at?, hid]
          rw [List.singleton_append, List.findIdx?_cons, this]
          simp
        · rw [if_neg hid]
          have : w.has (·.id = some id) [] = false := by simp [has, at?, hid]
          rw [List.singleton_append, List.findIdx?_cons, this]
          have b := key w.exposed (i + 1) 0 rfl
          cases hg : (shownIn 0 w.exposed).findIdx? (w.has (·.id = some id)) with
          | some k =>
            rw [hg] at b
            dsimp only at b ⊢
            rw [b]
            congr 1
            dsimp only
            omega
          | none =>
            rw [hg] at b
            dsimp only at b ⊢
            rw [b]
            congr 1
            rw [List.length_cons]
            omega

/-! ### Two filters of a sorted list that agree up to an element -/

theorem filter_prefix {P Q : List Nat → Bool} {p0 : List Nat} :
    ∀ (l : List (List Nat)), l.Pairwise (· < ·) → (∀ q ∈ l, (q < p0 ∨ q = p0) → P q = Q q) →
      ∀ (k : Nat), (l.filter P)[k]? = some p0 → (l.filter Q)[k]? = some p0
  | [], _, _, k, h => by simp at h
  | a :: l, hs, hag, k, h => by
    have ih := filter_prefix (P := P) (Q := Q) (p0 := p0) l (List.pairwise_cons.1 hs).2 (fun q hq => hag q (by simp [hq]))
    have hle : a < p0 ∨ a = p0 := by
      have hmem : p0 ∈ (a :: l).filter P := List.mem_of_getElem? h
      have := (List.mem_filter.1 hmem).1
      rcases List.mem_cons.1 this with e | hm
      · exact Or.inr e.symm
      · exact Or.inl ((List.pairwise_cons.1 hs).1 _ hm)
    have e := hag a (by simp) hle
    rw [List.filter_cons] at h ⊢
    rw [← e]
    cases hP : P a with
    | false =>
      rw [hP] at h
      simp only [Bool.false_eq_true, if_false] at h ⊢
      exact ih k h
    | true =>
      rw [hP] at h
      simp only [if_true] at h ⊢
      cases k with
      | zero => exact h
      | succ k => exact ih k (by simpa using h)

end Textual.Tree.W
