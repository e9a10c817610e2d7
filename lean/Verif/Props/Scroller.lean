import Verif.Spec.Scroller
import Mathlib.Tactic.Common
import Mathlib.Algebra.Order.Ring.Int

/-! C102, C103: which scrollbars a scrolling container shows, and where everything is. -/

namespace Textual.Scroller

open Layout (Placement Viewport)

theorem fold_gt (b : Body) (base : Region) (ps : List Placement) (acc : Int × Int) (n m : Int) :
    let r := ps.foldl (fun (acc : Int × Int) p =>
      let w := (p.region.x - base.x) + p.region.width + b.marginRight p.childIndex
      let h := (p.region.y - base.y) + p.region.height + b.marginBottom p.childIndex
      (if w > acc.1 then w else acc.1, if h > acc.2 then h else acc.2)) acc
    (r.1 > n ↔ acc.1 > n ∨ ∃ p ∈ ps, (p.region.x - base.x) + p.region.width + b.marginRight p.childIndex > n) ∧
    (r.2 > m ↔ acc.2 > m ∨ ∃ p ∈ ps, (p.region.y - base.y) + p.region.height + b.marginBottom p.childIndex > m) := by
  induction ps generalizing acc with
  | nil => simp
  | cons p ps ih =>
    simp only [List.foldl_cons, List.exists_mem_cons_iff]
    have h := ih (if (p.region.x - base.x) + p.region.width + b.marginRight p.childIndex > acc.1 then
        (p.region.x - base.x) + p.region.width + b.marginRight p.childIndex else acc.1,
      if (p.region.y - base.y) + p.region.height + b.marginBottom p.childIndex > acc.2 then
        (p.region.y - base.y) + p.region.height + b.marginBottom p.childIndex else acc.2)
    refine ⟨h.1.trans ?_, h.2.trans ?_⟩
    · rw [← or_assoc]; apply or_congr_left; dsimp only; split <;> omega
    · rw [← or_assoc]; apply or_congr_left; dsimp only; split <;> omega

/-- The size of the content passes the area exactly if some child sticks out. -/
theorem virtual_tall (b : Body) (vp : Viewport) (a : Region) :
    (virtualSize b (b.arrange a vp) a).2 > a.height ↔ TooTall b vp a := by
  refine ((fold_gt b a (b.arrange a vp) (0, 0) 0 a.height).2).trans ?_
  unfold TooTall
  refine or_congr (by simp) (exists_congr fun p => and_congr_right fun _ => ?_)
  omega

theorem virtual_wide (b : Body) (vp : Viewport) (a : Region) :
    (virtualSize b (b.arrange a vp) a).1 > a.width ↔ TooWide b vp a := by
  refine ((fold_gt b a (b.arrange a vp) (0, 0) a.width 0).1).trans ?_
  unfold TooWide
  refine or_congr (by simp) (exists_congr fun p => and_congr_right fun _ => ?_)
  omega

theorem needs_iff (o : Overflow) (v n : Int) : needs o v n = true ↔ Wanted o (v > n) := by
  cases o <;> simp [needs, Wanted]

theorem next_v (s : Sheet) (b : Body) (r : Region) (vp : Viewport) (f : Flags) :
    (next s b r vp f).v = true ↔ Wanted s.overflowY (TooTall b vp (contentRegion s r f)) := by
  rw [next, needs_iff, virtual_tall]

theorem next_h (s : Sheet) (b : Body) (r : Region) (vp : Viewport) (f : Flags) :
    (next s b r vp f).h = true ↔ Wanted s.overflowX (TooWide b vp (contentRegion s r f)) := by
  rw [next, needs_iff, virtual_wide]

/-- The order on shown bars. -/
def Flags.Le (f g : Flags) : Prop := (f.v = true → g.v = true) ∧ (f.h = true → g.h = true)

theorem content_mono (s : Sheet) (r : Region) {f g : Flags} (h : f.Le g) :
    (contentRegion s r g).width ≤ (contentRegion s r f).width ∧
    (contentRegion s r g).height ≤ (contentRegion s r f).height := by
  obtain ⟨h1, h2⟩ := h
  simp only [contentRegion]
  constructor
  · split
    · split <;> omega
    · rename_i hg
      rw [if_neg (by rintro (q | q); exacts [hg (.inl (h1 q)), hg (.inr q)])]
  · split
    · split <;> omega
    · rename_i hg
      rw [if_neg (fun q => hg (h2 q))]

theorem next_mono (s : Sheet) (b : Body) (r : Region) (vp : Viewport) (hm : Monotone b vp) {f g : Flags}
    (h : f.Le g) : (next s b r vp f).Le (next s b r vp g) := by
  obtain ⟨hw, hh⟩ := content_mono s r h
  have key := hm r.x r.y _ _ _ _ hw hh
  constructor
  · rw [next_v, next_v]; exact fun q => q.imp id fun ⟨a, t⟩ => ⟨a, key.1 t⟩
  · rw [next_h, next_h]; exact fun q => q.imp id fun ⟨a, t⟩ => ⟨a, key.2 t⟩

theorem plan_settles (s : Sheet) (b : Body) (r : Region) (vp : Viewport) (hm : Monotone b vp) :
    next s b r vp (plan s b r vp).show_ = (plan s b r vp).show_ ∧
    (plan s b r vp).content = contentRegion s r (plan s b r vp).show_ ∧
    ∀ g, next s b r vp g = g → (plan s b r vp).show_.Le g := by
  have h0 : ∀ g : Flags, Flags.Le {} g := fun g => ⟨by simp, by simp⟩
  have m1 : (next s b r vp {}).Le (next s b r vp (next s b r vp {})) := next_mono s b r vp hm (h0 _)
  have m2 := next_mono s b r vp hm m1
  have l1 : ∀ g, next s b r vp g = g → (next s b r vp {}).Le g := fun g hg => by
    have := next_mono s b r vp hm (h0 g); rwa [hg] at this
  have l2 : ∀ g, next s b r vp g = g → (next s b r vp (next s b r vp {})).Le g := fun g hg => by
    have := next_mono s b r vp hm (l1 g hg); rwa [hg] at this
  unfold plan
  rw [rounds]; dsimp only
  by_cases e1 : next s b r vp {} = {}
  · rw [if_pos e1]; dsimp only; rw [e1]; exact ⟨e1, rfl, fun g _ => h0 g⟩
  rw [if_neg e1, rounds]; dsimp only
  by_cases e2 : next s b r vp (next s b r vp {}) = next s b r vp {}
  · rw [if_pos e2]; dsimp only; rw [e2]; exact ⟨e2, rfl, l1⟩
  rw [if_neg e2, rounds]; dsimp only
  have e3 : next s b r vp (next s b r vp (next s b r vp {})) = next s b r vp (next s b r vp {}) := by
    generalize hf : next s b r vp {} = f1 at *
    generalize hg : next s b r vp f1 = f2 at *
    generalize hk : next s b r vp f2 = f3 at *
    rcases f1 with ⟨_ | _, _ | _⟩ <;> rcases f2 with ⟨_ | _, _ | _⟩ <;> rcases f3 with ⟨_ | _, _ | _⟩ <;>
      simp_all [Flags.Le]
  rw [e3]; exact ⟨e3, rfl, l2⟩

/-- **C102** (partial: only if less room never makes content fit; see `bars_counterexample`). A bar is shown exactly
if it is called for by the content laid out beside the bars shown, the children are drawn in the area beside
those bars, and no bar is shown that another consistent choice could do without. -/
theorem bars_partial (s : Sheet) (b : Body) (r : Region) (vp : Viewport) (hm : Monotone b vp) :
    let p := plan s b r vp
    let area (f : Flags) := contentRegion s r f
    (p.show_.v = true ↔ Wanted s.overflowY (TooTall b vp p.content)) ∧
    (p.show_.h = true ↔ Wanted s.overflowX (TooWide b vp p.content)) ∧
    p.content = area p.show_ ∧ p.placements = b.arrange p.content vp ∧
    ∀ g : Flags, (g.v = true ↔ Wanted s.overflowY (TooTall b vp (area g))) →
      (g.h = true ↔ Wanted s.overflowX (TooWide b vp (area g))) →
      (p.show_.v = true → g.v = true) ∧ (p.show_.h = true → g.h = true) := by
  obtain ⟨e, ec, el⟩ := plan_settles s b r vp hm
  refine ⟨?_, ?_, ec, ?_, ?_⟩
  · rw [ec, ← next_v, e]
  · rw [ec, ← next_h, e]
  · unfold plan
    rw [rounds]; dsimp only
    split
    · rfl
    rw [rounds]; dsimp only
    split
    · rfl
    rw [rounds]
  · intro g h1 h2
    apply el
    rw [← next_v] at h1; rw [← next_h] at h2
    generalize next s b r vp g = q at *
    rcases q with ⟨_ | _, _ | _⟩ <;> rcases g with ⟨_ | _, _ | _⟩ <;> simp_all

/-- A child of fixed size, as in most layouts. -/
def card (w h : Int) : Body := { arrange := fun a _ => [⟨0, ⟨a.x, a.y, w, h⟩⟩] }

theorem card_monotone (w h : Int) (vp : Viewport) : Monotone (card w h) vp := by
  intro x y a c a' c' ha hc
  simp only [TooTall, TooWide, card, List.mem_singleton, exists_eq_left]
  omega

/-- The vertical bar takes the room that makes the horizontal one necessary. -/
example : Monotone (card 10 30) ⟨80, 24⟩ ∧ (plan {} (card 10 30) ⟨0, 0, 11, 20⟩ ⟨80, 24⟩).show_ = ⟨true, true⟩ ∧
    (plan {} (card 10 30) ⟨0, 0, 11, 20⟩ ⟨80, 24⟩).content = ⟨0, 0, 9, 19⟩ :=
  ⟨card_monotone _ _ _, by decide +kernel, by decide +kernel⟩

/-- A child as tall as the area is wide. -/
def square : Body := { arrange := fun a _ => [⟨0, ⟨a.x, a.y, a.width, a.width⟩⟩] }

/-- **C102**, the case left out: a child whose height follows the width. Neither choice is consistent, and after
three rounds the vertical bar is shown although the child is drawn over the full width, under the bar. -/
theorem bars_counterexample :
    let p := plan {} square ⟨0, 0, 10, 9⟩ ⟨80, 24⟩
    p.show_.v = true ∧ p.content = ⟨0, 0, 10, 9⟩ ∧ p.placements = [⟨0, ⟨0, 0, 10, 10⟩⟩] ∧
    At (vRegion {} ⟨0, 0, 10, 9⟩ p.show_.h) 9 3 ∧ At p.content 9 3 := by
  decide +kernel

/-! ### C103 -/

/-- The parts of the inner region when the bars `f` are shown. -/
def parts (s : Sheet) (r : Region) (f : Flags) : List Region :=
  contentRegion s r f :: ((if f.v then [vRegion s r f.h] else []) ++ (if f.h then [hRegion s r f.v] else []) ++
    (if f.v && f.h then [cornerRegion s r] else []))

/-- **C103** (partial: bars no larger than the inner region, and no reserved gutter without its bar). Every cell of the
inner region is in exactly one of the content area, the bars shown and the corner between them, and these
have no cell outside. -/
theorem parts_tile_partial (s : Sheet) (r : Region) (f : Flags) (hv : f.v = true → (s.barV : Int) ≤ r.width)
    (hh : f.h = true → (s.barH : Int) ≤ r.height) (hg : s.stableGutter = true → s.overflowY = .auto → f.v = true)
    (x y : Int) :
    ((parts s r f).filter fun a => decide (At a x y)).length = if At r x y then 1 else 0 := by
  obtain ⟨fv, fh⟩ := f
  have hgut : (fv = true ∨ (s.stableGutter = true ∧ s.overflowY = .auto)) ↔ fv = true :=
    ⟨fun h => h.elim id fun q => hg q.1 q.2, .inl⟩
  simp only [parts, contentRegion, hgut]
  by_cases hr : At r x y
  all_goals
    first | rw [if_pos hr] | rw [if_neg hr]
    unfold At at hr
    cases fv <;> cases fh <;>
      simp only [vRegion, hRegion, cornerRegion, List.filter_cons, List.filter_nil, List.nil_append,
        List.append_nil, List.cons_append, Bool.and_true, Bool.and_false, Bool.false_eq_true, if_false, if_true,
        decide_eq_true_eq, Bool.and_self, true_implies, false_implies] at hv hh ⊢ <;>
      split_ifs <;> (try simp only [List.length_cons, List.length_nil]) <;> simp only [At] at * <;> omega

example : ((parts {} ⟨3, 2, 11, 20⟩ ⟨true, true⟩).filter fun a => decide (At a 13 21)).length = 1 ∧
    (parts {} ⟨3, 2, 11, 20⟩ ⟨true, true⟩).length = 4 := by decide +kernel

/-- **C103**, the case left out: in an area one column wide the bar of two columns reaches past the left edge. -/
theorem parts_counterexample : At (vRegion {} ⟨5, 0, 1, 4⟩ false) 4 0 ∧ ¬ At ⟨5, 0, 1, 4⟩ 4 0 := by decide +kernel

end Textual.Scroller
