import Verif.Spec.Svg
import Mathlib.Data.String.Basic
import Mathlib.Data.List.Nodup
import Mathlib.Tactic.Common

/-!
C132: a screenshot shows the characters of the canvas. C133: it shows the backgrounds. C134: its text is well formed and
does not depend on the order of a hash map. C135: a coloured snapshot shows the cells of the canvas. -/

namespace Textual.Svg

/-! ### Classes -/

/-- The class table: names number the entries, colours are distinct. -/
structure TableOk (s : Classes) : Prop where
  names : ∀ i (h : i < s.length), s[i].2 = "terminal-r" ++ toString (i + 1)
  nodup : (s.map (·.1)).Nodup

theorem name_inj {m n : Nat} (h : "terminal-r" ++ toString m = "terminal-r" ++ toString n) : m = n := by
  have h1 := congrArg String.toList h
  rw [String.toList_append, String.toList_append] at h1
  have h2 := List.append_cancel_left h1
  have h3 : (toString m).toList = Nat.toDigits 10 m := Nat.toList_repr
  have h4 : (toString n).toList = Nat.toDigits 10 n := Nat.toList_repr
  rw [h3, h4] at h2
  have := congrArg (fun l => Nat.ofDigitChars 10 l 0) h2
  simpa [Nat.ofDigitChars_toDigits] using this

theorem addFg_ok {s : Classes} (h : TableOk s) (c : Rgb) : TableOk (addFg s c) := by
  unfold addFg
  split
  · exact h
  · rename_i hn
    constructor
    · intro i hi
      rw [List.getElem_append]
      split
      · exact h.names i _
      · simp at hi
        have : i = s.length := by omega
        subst this
        simp
    · rw [List.map_append, List.nodup_append]
      refine ⟨h.nodup, by simp, ?_⟩
      intro a ha b hb
      simp at hb
      subst hb
      rintro rfl
      apply hn
      obtain ⟨e, he, he2⟩ := List.mem_map.1 ha
      rw [List.any_eq_true]
      exact ⟨e, he, by simp [he2]⟩

theorem addFg_mem (s : Classes) (c : Rgb) : c ∈ (addFg s c).map (·.1) ∧ ∀ d ∈ s.map (·.1), d ∈ (addFg s c).map (·.1) := by
  unfold addFg
  split
  · rename_i h
    rw [List.any_eq_true] at h
    obtain ⟨e, he, he2⟩ := h
    simp at he2
    exact ⟨List.mem_map.2 ⟨e, he, he2⟩, fun d hd => hd⟩
  · simp
    tauto

theorem collect_ok (cells : List Cell) : TableOk (collect cells) ∧
    ∀ c ∈ cells, ∀ f, c.fg = some f → f ∈ (collect cells).map (·.1) := by
  have : ∀ (cells : List Cell) (s : Classes), TableOk s →
      TableOk (cells.foldl (fun s c => match c.fg with | some f => addFg s f | none => s) s) ∧
      (∀ d ∈ s.map (·.1), d ∈ (cells.foldl (fun s c => match c.fg with | some f => addFg s f | none => s) s).map (·.1)) ∧
      ∀ c ∈ cells, ∀ f, c.fg = some f →
        f ∈ (cells.foldl (fun s c => match c.fg with | some f => addFg s f | none => s) s).map (·.1) := by
    intro cells
    induction cells with
    | nil => intro s h; exact ⟨h, fun d hd => hd, by simp⟩
    | cons c r ih =>
      intro s h
      rw [List.foldl_cons]
      cases hf : c.fg with
      | none =>
        obtain ⟨h1, h2, h3⟩ := ih s h
        refine ⟨h1, h2, ?_⟩
        intro d hd f he
        rcases List.mem_cons.1 hd with rfl | hd
        · rw [hf] at he; simp at he
        · exact h3 d hd f he
      | some f =>
        obtain ⟨h1, h2, h3⟩ := ih (addFg s f) (addFg_ok h f)
        refine ⟨h1, fun d hd => h2 d ((addFg_mem s f).2 d hd), ?_⟩
        intro d hd g he
        rcases List.mem_cons.1 hd with rfl | hd
        · rw [hf] at he
          simp at he
          subst he
          exact h2 _ (addFg_mem s f).1
        · exact h3 d hd g he
  obtain ⟨h1, -, h3⟩ := this cells [] ⟨by simp, by simp⟩
  exact ⟨h1, h3⟩

theorem TableOk.name_unique {s : Classes} (h : TableOk s) {a b : Rgb × String} (ha : a ∈ s) (hb : b ∈ s)
    (e : a.2 = b.2) : a = b := by
  obtain ⟨i, hi, rfl⟩ := List.mem_iff_getElem.1 ha
  obtain ⟨j, hj, rfl⟩ := List.mem_iff_getElem.1 hb
  rw [h.names, h.names] at e
  have := name_inj e
  have : i = j := by omega
  subst this
  rfl

theorem cssRules_perm (s : Classes) : (cssRules s).Perm (s.map fun e => (e.2, e.1)) :=
  (List.mergeSort_perm s _).map _

/-- The sorted rules do not depend on the order of the entries. -/
theorem cssRules_order {s t : Classes} (h : TableOk s) (p : t.Perm s) : cssRules t = cssRules s := by
  unfold cssRules
  congr 1
  have tr : ∀ a b c : Rgb × String, decide (a.2 ≤ b.2) = true → decide (b.2 ≤ c.2) = true → decide (a.2 ≤ c.2) = true := by
    intro a b c h1 h2
    simp at h1 h2 ⊢
    exact le_trans h1 h2
  have tot : ∀ a b : Rgb × String, (decide (a.2 ≤ b.2) || decide (b.2 ≤ a.2)) = true := by
    intro a b
    simp
    exact le_total _ _
  refine List.Perm.eq_of_pairwise (le := fun a b => decide (a.2 ≤ b.2) = true) ?_
    (List.pairwise_mergeSort tr tot t) (List.pairwise_mergeSort tr tot s)
    (((List.mergeSort_perm t _).trans p).trans (List.mergeSort_perm s _).symm)
  intro a b ha hb h1 h2
  simp at h1 h2
  have ha' : a ∈ s := p.subset ((List.mergeSort_perm t _).subset ha)
  have hb' : b ∈ s := (List.mergeSort_perm s _).subset hb
  exact h.name_unique ha' hb' (le_antisymm h1 h2)

/-- The class of a colour is filled with it. -/
theorem fill_class {s t : Classes} (h : TableOk s) (p : t.Perm s) (fg : Option Rgb)
    (hf : ∀ f, fg = some f → f ∈ s.map (·.1)) : fillOf (cssRules t) (className s fg) = fg := by
  have hm : ∀ r : String × Rgb, r ∈ cssRules t ↔ (r.2, r.1) ∈ s := by
    intro r
    rw [(cssRules_perm t).mem_iff, List.mem_map]
    constructor
    · rintro ⟨e, he, rfl⟩; exact p.subset he
    · intro hr; exact ⟨(r.2, r.1), p.symm.subset hr, rfl⟩
  unfold fillOf
  cases fg with
  | none =>
    have : (cssRules t).reverse.find? (fun r => r.1 == className s none) = none := by
      rw [List.find?_eq_none]
      intro r hr
      rw [List.mem_reverse, hm] at hr
      obtain ⟨i, hi, e⟩ := List.mem_iff_getElem.1 hr
      have h1 := h.names i hi
      rw [e] at h1
      simp only at h1
      rw [h1]
      intro hb
      have hb := congrArg String.toList (beq_iff_eq.1 hb)
      rw [String.toList_append] at hb
      have hd := congrArg (fun l => l.drop 9) hb
      have hc : (className s none).toList = "terminal-default".toList := rfl
      rw [hc] at hd
      have h2 : ("terminal-r".toList ++ (toString (i + 1)).toList).drop 9 = 'r' :: (toString (i + 1)).toList := rfl
      rw [h2] at hd
      have h3 : "terminal-default".toList.drop 9 = "default".toList := rfl
      rw [h3] at hd
      have := congrArg List.head? hd
      simp at this
    rw [this]
    rfl
  | some f =>
    obtain ⟨e, he, hef⟩ := List.mem_map.1 (hf f rfl)
    have hfind : ∃ e', s.find? (·.1 == f) = some e' ∧ e' ∈ s ∧ e'.1 = f := by
      cases hfi : s.find? (·.1 == f) with
      | none =>
        rw [List.find?_eq_none] at hfi
        exact absurd (by simp [hef]) (hfi e he)
      | some e' =>
        exact ⟨e', rfl, List.mem_of_find?_eq_some hfi, by simpa using List.find?_some hfi⟩
    obtain ⟨e', h1, h2, h3⟩ := hfind
    have hcl : className s (some f) = e'.2 := by
      unfold className
      simp [h1]
    rw [hcl]
    cases hr : (cssRules t).reverse.find? (fun r => r.1 == e'.2) with
    | none =>
      rw [List.find?_eq_none] at hr
      have : (e'.2, e'.1) ∈ (cssRules t).reverse := by rw [List.mem_reverse, hm]; exact h2
      exact absurd (by simp) (hr _ this)
    | some r =>
      have hr1 := List.mem_of_find?_eq_some hr
      have hr2 : r.1 = e'.2 := by simpa using List.find?_some hr
      rw [List.mem_reverse, hm] at hr1
      have := h.name_unique hr1 h2 hr2
      have h4 := congrArg Prod.fst this
      simp at h4
      simp [h4, h3]

/-! ### Texts -/

theorem spread_append (wd : String → Nat) (ink : Nat → String → Ink) (l : List String) (s : String) (x : Nat) :
    spread wd ink x (l ++ [s]) = spread wd ink x l ++ [ink (x + (l.map wd).sum) s] := by
  induction l generalizing x with
  | nil => simp [spread]
  | cons a r ih => simp [spread, ih, Nat.add_assoc]

theorem trimPlain_nil {l : List Cell} (h : l.all plain = true) : trimPlain l = [] := by
  cases l with
  | nil => rfl
  | cons c r => rw [trimPlain, if_pos h]

theorem trimPlain_cons {c : Cell} {l : List Cell} (h : (c :: l).all plain = false) :
    trimPlain (c :: l) = c :: trimPlain l := by
  rw [trimPlain, if_neg (by simp [h])]

section
variable (wd : String → Nat) (s : Classes) (css : List (String × Rgb)) (y : Nat)

/-- What is drawn of a run. -/
def Run.ink (r : Run) : List Ink := (r.text s y).drawn wd css

theorem flush_drawn (run : Run) (hne : ∀ t ∈ run.symbols, t ≠ "") (fg : Option Rgb) (attrs : Attrs) :
    (flushText s y run fg attrs).flatMap (Text.drawn wd css) =
      if fg ≠ run.fg ∨ attrs ≠ run.attrs then run.ink wd s css y else [] := by
  unfold flushText
  by_cases h : fg ≠ run.fg ∨ attrs ≠ run.attrs
  · rw [if_pos h]
    by_cases he : run.isEmpty = false
    · rw [if_pos ⟨h, he⟩]
      simp [Run.ink]
    · rw [if_neg (fun x => he x.2)]
      have : run.symbols = [] := by
        unfold Run.isEmpty at he
        simp at he
        cases hs : run.symbols with
        | nil => rfl
        | cons a r =>
          have := hne a (by simp [hs])
          exact absurd (he a (by simp [hs])) this
      simp [Run.ink, Text.drawn, Run.text, this, spread]
  · rw [if_neg h, if_neg (fun x => h x.1)]
    rfl

theorem conts_pass (x : Nat) (run : Run) (conts rest : List Cell)
    (hc : ∀ c ∈ conts, c.continuation = true ∧ c.fg = run.fg ∧ c.attrs = run.attrs) :
    rowTexts s y x run (conts ++ rest) = rowTexts s y (x + conts.length) run rest := by
  induction conts generalizing x with
  | nil => rfl
  | cons c r ih =>
    obtain ⟨h1, h2, h3⟩ := hc c (by simp)
    rw [List.cons_append, rowTexts, h2, h3]
    have e1 : flushText s y run run.fg run.attrs = [] := by
      unfold flushText
      simp
    have e2 : (run.next x run.fg run.attrs).add c = run := by
      unfold Run.next Run.add
      simp [h1]
    rw [e1, e2, List.nil_append, ih (x + 1) (fun c hc' => hc c (by simp [hc']))]
    congr 1
    simp
    omega

theorem conts_wanted (x : Nat) (conts rest : List Cell) (hc : ∀ c ∈ conts, c.continuation = true) :
    wanted y x (conts ++ rest) = wanted y (x + conts.length) rest := by
  induction conts generalizing x with
  | nil => rfl
  | cons c r ih =>
    rw [List.cons_append, wanted, if_pos (hc c (by simp)), ih (x + 1) (fun c hc' => hc c (by simp [hc']))]
    congr 1
    simp
    omega

theorem trim_conts (conts rest : List Cell) (h : rest.all plain = false) :
    trimPlain (conts ++ rest) = conts ++ trimPlain rest := by
  induction conts with
  | nil => rfl
  | cons c r ih =>
    rw [List.cons_append, trimPlain_cons, ih]
    · rfl
    · rw [List.all_eq_false] at h ⊢
      obtain ⟨d, hd, hd2⟩ := h
      exact ⟨d, by simp [hd], hd2⟩

theorem trim_styled (conts : List Cell) (h : ∀ c ∈ conts, plain c = false) (rest : List Cell) :
    trimPlain (conts ++ rest) = conts ++ trimPlain rest := by
  induction conts with
  | nil => rfl
  | cons c r ih =>
    rw [List.cons_append, trimPlain_cons, ih (fun d hd => h d (by simp [hd]))]
    · rfl
    · rw [List.all_eq_false]
      exact ⟨c, by simp, by simp [h c (by simp)]⟩

/-- Whether a run has neither colour nor attributes. -/
def Run.plain (r : Run) : Bool := r.fg == none && r.attrs == {}

theorem row_drawn {row : List Cell} (hw : Whole wd row) :
    ∀ (x : Nat) (run : Run), (∀ t ∈ run.symbols, t ≠ "") → run.start + (run.symbols.map wd).sum = x →
      (∀ f a, (f = run.fg ∧ a = run.attrs) ∨ (∃ c ∈ row, f = c.fg ∧ a = c.attrs) → fillOf css (className s f) = f) →
      (rowTexts s y x run row).flatMap (Text.drawn wd css) =
        if run.plain = true ∧ row.all plain = true then [] else run.ink wd s css y ++ wanted y x (trimPlain row) := by
  induction hw with
  | nil =>
    intro x run hne hx hf
    rw [rowTexts, flush_drawn wd s css y run hne]
    have : (run.plain = true ∧ ([] : List Cell).all plain = true) ↔ ¬ ((none : Option Rgb) ≠ run.fg ∨ ({} : Attrs) ≠ run.attrs) := by
      unfold Run.plain
      simp
      constructor
      · rintro ⟨h1, h2⟩; exact ⟨h1.symm, h2.symm⟩
      · rintro ⟨h1, h2⟩; exact ⟨h1.symm, h2.symm⟩
    by_cases h : (none : Option Rgb) ≠ run.fg ∨ ({} : Attrs) ≠ run.attrs
    · rw [if_pos h, if_neg (fun hh => this.1 hh h)]
      simp [trimPlain, wanted]
    · rw [if_neg h, if_pos (this.2 h)]
  | char t fg bg attrs conts rest hs hwd hc hr ih =>
    intro x run hne hx hf
    rw [rowTexts, List.flatMap_append, flush_drawn wd s css y run hne]
    simp only
    -- the run that the character begins or joins
    have hink : fillOf css (className s fg) = fg :=
      hf fg attrs (Or.inr ⟨_, List.mem_cons_self, rfl, rfl⟩)
    have hplainc : ∀ c ∈ conts, plain c = (fg == none && attrs == {}) := by
      intro c hc'
      obtain ⟨-, h2, h3⟩ := hc c hc'
      unfold plain
      rw [h2, h3]
    have hall : ∀ l : List Cell, ((⟨t, wd t, false, fg, bg, attrs⟩ : Cell) :: (conts ++ l)).all plain =
        ((fg == none && attrs == {}) && l.all plain) := by
      intro l
      rw [List.all_cons, List.all_append]
      have h1 : conts.all plain = true ∨ (fg == none && attrs == {}) = false := by
        cases hb : (fg == none && attrs == {}) with
        | false => right; rfl
        | true => left; rw [List.all_eq_true]; intro c hc'; rw [hplainc c hc', hb]
      have h2 : plain (⟨t, wd t, false, fg, bg, attrs⟩ : Cell) = (fg == none && attrs == {}) := rfl
      rw [h2]
      rcases h1 with h1 | h1
      · rw [h1]; simp
      · rw [h1]; simp
    -- what is wanted of the trimmed row, when something is left of it
    have hwant : ((fg == none && attrs == {}) && rest.all plain) = false →
        wanted y x (trimPlain ((⟨t, wd t, false, fg, bg, attrs⟩ : Cell) :: (conts ++ rest))) =
          ⟨y, x, t, fg, attrs.bold, attrs.italic, attrs.underline, attrs.strike⟩ ::
            wanted y (x + wd t) (trimPlain rest) := by
      intro hb
      have e : trimPlain ((⟨t, wd t, false, fg, bg, attrs⟩ : Cell) :: (conts ++ rest)) =
          ⟨t, wd t, false, fg, bg, attrs⟩ :: (conts ++ trimPlain rest) := by
        rw [trimPlain_cons (by rw [hall]; exact hb)]
        congr 1
        cases hr2 : rest.all plain with
        | false => exact trim_conts conts rest hr2
        | true =>
          rw [hr2, Bool.and_true] at hb
          exact trim_styled conts (fun c hc' => by rw [hplainc c hc', hb]) rest
      rw [e, wanted]
      simp only [Bool.false_eq_true, if_false]
      rw [conts_wanted y _ _ _ (fun c hc' => (hc c hc').1)]
      congr 2
      omega
    by_cases hch : fg ≠ run.fg ∨ attrs ≠ run.attrs
    · rw [if_pos hch]
      have hsym : ((run.next x fg attrs).add ⟨t, wd t, false, fg, bg, attrs⟩).symbols = [t] ∧
          ((run.next x fg attrs).add ⟨t, wd t, false, fg, bg, attrs⟩).start = x ∧
          ((run.next x fg attrs).add ⟨t, wd t, false, fg, bg, attrs⟩).fg = fg ∧
          ((run.next x fg attrs).add ⟨t, wd t, false, fg, bg, attrs⟩).attrs = attrs := by
        unfold Run.next Run.add
        rw [if_pos hch]
        by_cases he : run.isEmpty = false
        · simp [he]
        · have : run.symbols = [] := by
            unfold Run.isEmpty at he
            simp at he
            cases hs : run.symbols with
            | nil => rfl
            | cons a r =>
              have := hne a (by simp [hs])
              exact absurd (he a (by simp [hs])) this
          simp [he, this]
      generalize hrun : (run.next x fg attrs).add ⟨t, wd t, false, fg, bg, attrs⟩ = run' at hsym
      obtain ⟨g1, g2, g3, g4⟩ := hsym
      rw [conts_pass s y (x + 1) run' conts rest (fun c hc' => by rw [g3, g4]; exact hc c hc')]
      rw [ih (x + 1 + conts.length) run' (by rw [g1]; simpa using hs) (by rw [g1, g2]; simp; omega) (by
        intro f a h
        rcases h with ⟨h1, h2⟩ | ⟨c, hc', h1, h2⟩
        · rw [h1, g3]; exact hink
        · exact hf f a (Or.inr ⟨c, by simp [hc'], h1, h2⟩))]
      have hi : run'.ink wd s css y = [⟨y, x, t, fg, attrs.bold, attrs.italic, attrs.underline, attrs.strike⟩] := by
        unfold Run.ink Text.drawn Run.text
        rw [g1, g2, g3, g4]
        simp [spread, hink]
      have hp : run'.plain = (fg == none && attrs == {}) := by unfold Run.plain; rw [g3, g4]
      rw [hp, hi, hall]
      have hnot : ¬ (run.plain = true ∧ ((fg == none && attrs == {}) && rest.all plain) = true) := by
        rintro ⟨h1, h2⟩
        unfold Run.plain at h1
        simp at h1 h2
        rw [h1.1, h1.2, h2.1.1, h2.1.2] at hch
        simp at hch
      rw [if_neg hnot]
      congr 1
      by_cases hb : ((fg == none && attrs == {}) && rest.all plain) = true
      · rw [if_pos (by rw [Bool.and_eq_true] at hb; exact hb), trimPlain_nil (by rw [hall]; exact hb)]
        rfl
      · rw [if_neg (by rw [Bool.and_eq_true] at hb; exact hb), hwant (by simpa using hb)]
        have e : x + 1 + conts.length = x + wd t := by omega
        rw [e]
        rfl
    · rw [if_neg hch]
      have hsame : fg = run.fg ∧ attrs = run.attrs := by
        constructor
        · by_contra h; exact hch (Or.inl h)
        · by_contra h; exact hch (Or.inr h)
      obtain ⟨e1, e2⟩ := hsame
      have hadd : (run.next x fg attrs).add ⟨t, wd t, false, fg, bg, attrs⟩ =
          { run with symbols := run.symbols ++ [t], cells := run.cells + wd t } := by
        unfold Run.next Run.add
        rw [if_neg hch]
        simp
      rw [hadd]
      generalize hrun : ({ run with symbols := run.symbols ++ [t], cells := run.cells + wd t } : Run) = run'
      have g1 : run'.symbols = run.symbols ++ [t] := by rw [← hrun]
      have g2 : run'.start = run.start := by rw [← hrun]
      have g3 : run'.fg = fg := by rw [← hrun, e1]
      have g4 : run'.attrs = attrs := by rw [← hrun, e2]
      rw [conts_pass s y (x + 1) run' conts rest (fun c hc' => by rw [g3, g4]; exact hc c hc')]
      rw [ih (x + 1 + conts.length) run' (by
          rw [g1]
          intro u hu
          rcases List.mem_append.1 hu with hu | hu
          · exact hne u hu
          · simp at hu; rw [hu]; exact hs) (by rw [g1, g2]; simp; omega) (by
        intro f a h
        rcases h with ⟨h1, h2⟩ | ⟨c, hc', h1, h2⟩
        · rw [h1, g3]; exact hink
        · exact hf f a (Or.inr ⟨c, by simp [hc'], h1, h2⟩))]
      have hi : run'.ink wd s css y = run.ink wd s css y ++
          [⟨y, x, t, fg, attrs.bold, attrs.italic, attrs.underline, attrs.strike⟩] := by
        unfold Run.ink Text.drawn Run.text
        simp only
        rw [g1, g2, g3, g4, spread_append, hx, ← e1, ← e2, hink]
      have hp : run'.plain = (fg == none && attrs == {}) := by unfold Run.plain; rw [g3, g4]
      have hp2 : run.plain = (fg == none && attrs == {}) := by unfold Run.plain; rw [← e1, ← e2]
      rw [hp, hi, hall, hp2, List.nil_append]
      by_cases hb : ((fg == none && attrs == {}) && rest.all plain) = true
      · rw [if_pos (by rw [Bool.and_eq_true] at hb; exact hb), if_pos]
        refine ⟨(Bool.and_eq_true _ _ ▸ hb).1, hb⟩
      · rw [if_neg (by rw [Bool.and_eq_true] at hb; exact hb), if_neg (fun h => hb h.2), hwant (by simpa using hb)]
        have e : x + 1 + conts.length = x + wd t := by omega
        rw [e, List.append_assoc]
        rfl

end

/-- C132: what a screenshot shows is, row by row, the characters of the canvas in their places, colours and styles, except
the characters without colour and attributes at the end of a row. Partial: those are lost
(`text_lost_counterexample`), and `dim` and `reverse` are not shown (`reverse_counterexample`). -/
theorem text_shown_partial (wd : String → Nat) (title : Option String) (order : Classes → Classes)
    (ho : ∀ l, (order l).Perm l) (c : Canvas) (hw : ∀ y < c.h, Whole wd (row c y)) :
    (render title order c).texts.flatMap (Text.drawn wd (render title order c).css) =
      (List.range c.h).flatMap fun y => wanted y 0 (trimPlain (row c y)) := by
  unfold render
  simp only
  rw [List.flatMap_assoc]
  obtain ⟨h1, h2⟩ := collect_ok c.cells
  rw [List.flatMap_def, List.flatMap_def]
  congr 1
  refine List.map_congr_left ?_
  intro y hy
  rw [row_drawn wd (collect c.cells) (cssRules (order (collect c.cells))) y (hw y (List.mem_range.1 hy)) 0 {} (by simp)
    (by rfl)]
  · by_cases hp : (row c y).all plain = true
    · rw [if_pos ⟨rfl, hp⟩, trimPlain_nil hp]; rfl
    · rw [if_neg (fun h => hp h.2)]
      rfl
  · intro f a h
    refine fill_class h1 (ho _) f ?_
    intro g hg
    subst hg
    rcases h with ⟨h, -⟩ | ⟨d, hd, h, -⟩
    · simp at h
    · exact h2 d (List.mem_of_mem_drop (List.mem_of_mem_take hd)) g h.symm

/-- A row of plain characters, one of them wide, with a colour at its end. -/
example : Whole (fun s => if s = "世" then 2 else 1)
    [⟨"a", 1, false, none, none, {}⟩, ⟨"世", 2, false, none, none, {}⟩, ⟨" ", 0, true, none, none, {}⟩,
     ⟨"b", 1, false, some ⟨1, 2, 3⟩, none, { bold := true }⟩] := by
  refine Whole.char "a" none none {} [] _ (by decide) (by decide) (by simp) ?_
  refine Whole.char "世" none none {} [⟨" ", 0, true, none, none, {}⟩] _ (by decide) (by decide) (by simp) ?_
  exact Whole.char "b" (some ⟨1, 2, 3⟩) none { bold := true } [] [] (by decide) (by decide) (by simp) .nil

/-- A canvas of one row. -/
def line (cells : List Cell) : Canvas := ⟨cells.length, 1, cells, cells, true, []⟩

/-- C132: a text without colour is not in the screenshot at all. -/
theorem text_lost_counterexample (order : Classes → Classes) :
    (render none order (line [⟨"h", 1, false, none, none, {}⟩, ⟨"i", 1, false, none, none, {}⟩])).texts = [] := by
  show (List.range 1).flatMap (fun y => rowTexts _ y 0 {} (row (line _) y)) = []
  decide

/-- C132: text in reverse video (a cursor, a selection) looks like ordinary text, and dim text like text that is not. -/
theorem reverse_counterexample (order : Classes → Classes) (f : Rgb) :
    render none order (line [⟨"x", 1, false, some f, none, { reverse := true }⟩]) =
      render none order (line [⟨"x", 1, false, some f, none, {}⟩]) ∧
    render none order (line [⟨"x", 1, false, some f, none, { dim := true }⟩]) =
      render none order (line [⟨"x", 1, false, some f, none, {}⟩]) :=
  ⟨rfl, rfl⟩

/-- C132: the title asked for is not shown. -/
theorem title_counterexample (order : Classes → Classes) (c : Canvas) (t : String) :
    render (some t) order c = render none order c := rfl

/-! ### Backgrounds -/

/-- The cells that a list of rectangles covers. -/
theorem flush_covers (y x start : Nat) (bg now : Option Rgb) (y' x' : Nat) (f : Rgb) :
    (∃ r ∈ flushRect y x start bg now, r.Covers y' x' ∧ r.fill = f) ↔
      now ≠ bg ∧ bg = some f ∧ y' = y ∧ start ≤ x' ∧ x' < start + (x - start) := by
  unfold flushRect
  by_cases h : now ≠ bg
  · rw [if_pos h]
    cases bg with
    | none => simp
    | some b =>
      simp only [List.mem_singleton, exists_eq_left, Rect.Covers]
      constructor
      · rintro ⟨⟨rfl, h1, h2⟩, rfl⟩; exact ⟨h, rfl, rfl, h1, h2⟩
      · rintro ⟨-, h1, rfl, h2, h3⟩; simp at h1; exact ⟨⟨rfl, h2, h3⟩, h1⟩
  · rw [if_neg h]
    simp
    intro h'
    exact absurd h' h

theorem row_covers (y : Nat) (row : List Cell) : ∀ (x start : Nat) (bg : Option Rgb), start ≤ x → ∀ (y' x' : Nat) (f : Rgb),
    (∃ r ∈ rowRects y x start bg row, r.Covers y' x' ∧ r.fill = f) ↔
      y' = y ∧ ((start ≤ x' ∧ x' < x ∧ bg = some f) ∨ (x ≤ x' ∧ ∃ c, row[x' - x]? = some c ∧ c.bg = some f)) := by
  induction row with
  | nil =>
    intro x start bg hs y' x' f
    rw [rowRects, flush_covers]
    simp
    constructor
    · rintro ⟨-, h1, h2, h3, h4⟩; exact ⟨h2, h3, by omega, h1⟩
    · rintro ⟨h1, h2, h3, h4⟩
      refine ⟨?_, h4, h1, h2, by omega⟩
      rw [h4]
      simp
  | cons c r ih =>
    intro x start bg hs y' x' f
    rw [rowRects]
    have split : (∃ r_1 ∈ flushRect y x start bg c.bg ++
          (if c.bg ≠ bg then rowRects y (x + 1) x c.bg r else rowRects y (x + 1) start bg r),
          r_1.Covers y' x' ∧ r_1.fill = f) ↔
        (∃ r ∈ flushRect y x start bg c.bg, r.Covers y' x' ∧ r.fill = f) ∨
        (∃ r_1 ∈ (if c.bg ≠ bg then rowRects y (x + 1) x c.bg r else rowRects y (x + 1) start bg r),
          r_1.Covers y' x' ∧ r_1.fill = f) := by
      simp only [List.mem_append]
      constructor
      · rintro ⟨q, h1 | h1, h2⟩
        · exact Or.inl ⟨q, h1, h2⟩
        · exact Or.inr ⟨q, h1, h2⟩
      · rintro (⟨q, h1, h2⟩ | ⟨q, h1, h2⟩)
        · exact ⟨q, Or.inl h1, h2⟩
        · exact ⟨q, Or.inr h1, h2⟩
    rw [split, flush_covers]
    have hidx : ∀ P : Cell → Prop, (x ≤ x' ∧ ∃ d, (c :: r)[x' - x]? = some d ∧ P d) ↔
        (x' = x ∧ P c) ∨ (x + 1 ≤ x' ∧ ∃ d, r[x' - (x + 1)]? = some d ∧ P d) := by
      intro P
      constructor
      · rintro ⟨h1, d, h2, h3⟩
        by_cases hx : x' = x
        · left
          subst hx
          simp at h2
          exact ⟨rfl, h2 ▸ h3⟩
        · right
          refine ⟨by omega, d, ?_, h3⟩
          have e : x' - x = (x' - (x + 1)) + 1 := by omega
          rw [e, List.getElem?_cons_succ] at h2
          exact h2
      · rintro (⟨rfl, h⟩ | ⟨h1, d, h2, h3⟩)
        · exact ⟨le_refl _, c, by simp, h⟩
        · refine ⟨by omega, d, ?_, h3⟩
          have e : x' - x = (x' - (x + 1)) + 1 := by omega
          rw [e, List.getElem?_cons_succ]
          exact h2
    rw [hidx fun d => d.bg = some f]
    by_cases h : c.bg ≠ bg
    · rw [if_pos h, ih (x + 1) x c.bg (by omega)]
      constructor
      · rintro (⟨-, h1, h2, h3, h4⟩ | ⟨h1, ⟨h2, h3, h4⟩ | h2⟩)
        · exact ⟨h2, Or.inl ⟨h3, by omega, h1⟩⟩
        · exact ⟨h1, Or.inr (Or.inl ⟨by omega, h4⟩)⟩
        · exact ⟨h1, Or.inr (Or.inr h2)⟩
      · rintro ⟨h1, ⟨h2, h3, h4⟩ | ⟨h2, h3⟩ | h2⟩
        · exact Or.inl ⟨h, h4, h1, h2, by omega⟩
        · exact Or.inr ⟨h1, Or.inl ⟨by omega, by omega, h3⟩⟩
        · exact Or.inr ⟨h1, Or.inr h2⟩
    · rw [if_neg h, ih (x + 1) start bg (by omega)]
      have e : c.bg = bg := by by_contra h'; exact h h'
      rw [e]
      constructor
      · rintro (⟨h0, -⟩ | ⟨h1, ⟨h2, h3, h4⟩ | h2⟩)
        · exact absurd rfl h0
        · refine ⟨h1, ?_⟩
          by_cases hx : x' = x
          · exact Or.inr (Or.inl ⟨hx, h4⟩)
          · exact Or.inl ⟨h2, by omega, h4⟩
        · exact ⟨h1, Or.inr (Or.inr h2)⟩
      · rintro ⟨h1, ⟨h2, h3, h4⟩ | ⟨h2, h3⟩ | h2⟩
        · exact Or.inr ⟨h1, Or.inl ⟨h2, by omega, h4⟩⟩
        · exact Or.inr ⟨h1, Or.inl ⟨by omega, by omega, h3⟩⟩
        · exact Or.inr ⟨h1, Or.inr h2⟩

/-- C133: at each cell of the canvas the screenshot has exactly the background of the cell, and there is none where the
cell has none. -/
theorem background_shown (title : Option String) (order : Classes → Classes) (c : Canvas)
    (y x : Nat) (hy : y < c.h) (hx : x < c.w) (cell : Cell) (hc : c.cells[y * c.w + x]? = some cell) (f : Rgb) :
    (∃ r ∈ (render title order c).rects, r.Covers y x ∧ r.fill = f) ↔ cell.bg = some f := by
  unfold render
  simp only [List.mem_flatMap, List.mem_range]
  have hrow : (row c y)[x]? = some cell := by
    unfold row
    rw [List.getElem?_take, if_pos hx, List.getElem?_drop]
    exact hc
  constructor
  · rintro ⟨r, ⟨y', hy', hr⟩, h1, h2⟩
    have := (row_covers y' (row c y') 0 0 none (le_refl _) y x f).1 ⟨r, hr, h1, h2⟩
    obtain ⟨rfl, ⟨-, -, h⟩ | ⟨-, d, h3, h4⟩⟩ := this
    · simp at h
    · simp only [Nat.sub_zero] at h3
      rw [hrow] at h3
      simp at h3
      rw [h3]
      exact h4
  · intro h
    obtain ⟨r, hr, h1⟩ := (row_covers y (row c y) 0 0 none (le_refl _) y x f).2
      ⟨rfl, Or.inr ⟨Nat.zero_le _, cell, by simpa using hrow, h⟩⟩
    exact ⟨r, ⟨y, hy, hr⟩, h1⟩

/-- Nothing is painted outside the canvas. -/
theorem background_inside (title : Option String) (order : Classes → Classes) (c : Canvas) (r : Rect)
    (hr : r ∈ (render title order c).rects) (y x : Nat) (h : r.Covers y x) : y < c.h ∧ x < c.w := by
  unfold render at hr
  simp only [List.mem_flatMap, List.mem_range] at hr
  obtain ⟨y', hy', hr⟩ := hr
  have := (row_covers y' (row c y') 0 0 none (le_refl _) y x r.fill).1 ⟨r, hr, h, rfl⟩
  obtain ⟨rfl, ⟨-, -, h⟩ | ⟨-, d, h3, h4⟩⟩ := this
  · simp at h
  · refine ⟨hy', ?_⟩
    have := (List.getElem?_eq_some_iff.1 h3).1
    unfold row at this
    rw [List.length_take] at this
    omega

example : (render none id (line [⟨"a", 1, false, none, some ⟨1, 1, 1⟩, {}⟩, ⟨"b", 1, false, none, some ⟨1, 1, 1⟩, {}⟩,
    ⟨"c", 1, false, none, none, {}⟩, ⟨"d", 1, false, none, some ⟨2, 2, 2⟩, {}⟩])).rects =
    [⟨0, 0, 2, ⟨1, 1, 1⟩⟩, ⟨0, 3, 1, ⟨2, 2, 2⟩⟩] := by decide

/-! ### The text of the document -/

/-- C134: the text of an element is read back as it was, with blanks that do not break. -/
theorem escape_read (t : List Char) :
    decode none (escape t) = some (t.map fun c => if c = ' ' then Char.ofNat 160 else c) := by
  induction t with
  | nil => rfl
  | cons c r ih =>
    have e : escape (c :: r) = escapeChar c ++ escape r := by
      unfold escape
      rw [List.flatMap_cons]
    rw [e]
    unfold escapeChar
    split
    all_goals first
      | (simp [decode, entity, ih]; done)
      | skip
    rename_i h1 h2 h3 h4 h5 h6
    simp only [List.cons_append, List.nil_append, decode]
    have g1 : c ≠ '&' := fun h => h3 h
    have g2 : ¬ (c = '<' ∨ c = '>') := by rintro (h | h); exact h1 h; exact h2 h
    have g3 : c ≠ ' ' := fun h => h6 h
    rw [if_neg g1, if_neg g2, ih]
    simp [g3]

example : escape "a<b & c".toList = "a&lt;b&#160;&amp;&#160;c".toList := by decide

/-- C134: the document does not depend on the order in which the hash map of the colours is read. -/
theorem order_irrelevant (title : Option String) (o1 o2 : Classes → Classes) (h1 : ∀ l, (o1 l).Perm l)
    (h2 : ∀ l, (o2 l).Perm l) (c : Canvas) : render title o1 c = render title o2 c := by
  unfold render
  simp only
  rw [cssRules_order (collect_ok c.cells).1 (h1 _), cssRules_order (collect_ok c.cells).1 (h2 _)]

/-- A canvas with two colours, and two orders. -/
example : ∃ (c : Canvas) (o : Classes → Classes), (∀ l, (o l).Perm l) ∧ o (collect c.cells) ≠ collect c.cells :=
  ⟨line [⟨"a", 1, false, some ⟨1, 1, 1⟩, none, {}⟩, ⟨"b", 1, false, some ⟨2, 2, 2⟩, none, {}⟩], List.reverse,
    List.reverse_perm, by decide⟩

/-! ### Snapshots -/

theorem view_ne_nil (p : Pen) (l : List Tok) : view p l ≠ [] := by
  induction l generalizing p with
  | nil => simp [view]
  | cons t r ih =>
    cases t <;> simp only [view] <;> first | exact ih _ | skip
    · split <;> simp
    · simp

theorem view_attrs (p : Pen) (a : Attrs) (r : List Tok) : view p (attrToks a ++ r) = view ⟨none, none, a⟩ r := by
  obtain ⟨b1, b2, b3, b4, b5, b6⟩ := a
  unfold attrToks
  cases b1 <;> cases b2 <;> cases b3 <;> cases b4 <;> cases b5 <;> cases b6 <;> rfl

theorem view_fg (p : Pen) (now : Option Rgb) (r : List Tok) : view p (fgToks now p.fg ++ r) = view { p with fg := now } r := by
  unfold fgToks
  split
  · rename_i h
    cases now with
    | some c => rfl
    | none =>
      cases hf : p.fg with
      | none => exact absurd hf.symm h
      | some c => rfl
  · rename_i h
    have : now = p.fg := by by_contra h'; exact h h'
    rw [this]
    rfl

theorem view_bg (p : Pen) (now : Option Rgb) (r : List Tok) : view p (bgToks now p.bg ++ r) = view { p with bg := now } r := by
  unfold bgToks
  split
  · rename_i h
    cases now with
    | some c => rfl
    | none =>
      cases hf : p.bg with
      | none => exact absurd hf.symm h
      | some c => rfl
  · rename_i h
    have : now = p.bg := by by_contra h'; exact h h'
    rw [this]
    rfl

/-- One line put before the first of a list of lines. -/
def before (l : List (String × Pen)) : List (List (String × Pen)) → List (List (String × Pen))
  | [] => [l]
  | m :: ms => (l ++ m) :: ms

theorem view_row (cells : List Cell) (p : Pen) (r : List Tok) : ∃ q : Pen,
    view p (ansiRow p.fg p.bg p.attrs cells ++ r) = before (cells.map look) (view q r) := by
  induction cells generalizing p with
  | nil =>
    refine ⟨p, ?_⟩
    show view p r = before [] (view p r)
    cases h : view p r with
    | nil => exact absurd h (view_ne_nil p r)
    | cons m ms => rfl
  | cons c cs ih =>
    obtain ⟨q, hq⟩ := ih ⟨c.fg, c.bg, c.attrs⟩
    refine ⟨q, ?_⟩
    rw [ansiRow]
    simp only [List.append_assoc]
    have key : ∀ p' : Pen, p'.attrs = c.attrs →
        view p' (fgToks c.fg p'.fg ++ (bgToks c.bg p'.bg ++ ([Tok.text (shownText c)] ++ (ansiRow c.fg c.bg c.attrs cs ++ r)))) =
          before ((c :: cs).map look) (view q r) := by
      intro p' ha
      rw [view_fg, view_bg { p' with fg := c.fg }]
      simp only [List.cons_append, List.nil_append, view]
      rw [ha, hq]
      cases h : view q r with
      | nil => exact absurd h (view_ne_nil q r)
      | cons m ms => rfl
    by_cases h : c.attrs ≠ p.attrs
    · rw [if_pos h, if_pos h, if_pos h, view_attrs]
      exact key ⟨none, none, c.attrs⟩ rfl
    · rw [if_neg h, if_neg h, if_neg h, List.nil_append]
      have e : c.attrs = p.attrs := by by_contra h'; exact h h'
      exact key p e.symm

theorem view_reset (p : Pen) (r : List Tok) : view p ([Tok.reset] ++ r) = view {} r := rfl

/-- C135: a terminal that is fed the coloured snapshot writes, line by line, the text of each cell with its colours and
attributes. -/
theorem ansi_view (c : Canvas) (h : 0 < c.h) : view {} (ansi c) = (List.range c.h).map fun y => (row c y).map look := by
  have : ∀ (n k : Nat), n + k = c.h → 0 < n →
      view {} ((List.range' k n).flatMap fun y =>
        ansiRow none none {} (row c y) ++ [.reset] ++ (if y + 1 < c.h then [.newline] else [])) =
      (List.range' k n).map fun y => (row c y).map look := by
    intro n
    induction n with
    | zero => intro k _ h0; omega
    | succ n ih =>
      intro k hk _
      rw [List.range'_succ, List.flatMap_cons, List.map_cons]
      simp only [List.append_assoc]
      obtain ⟨q, hq⟩ := view_row (row c k) {} ([Tok.reset] ++ ((if k + 1 < c.h then [.newline] else []) ++
        (List.range' (k + 1) n).flatMap fun y =>
          ansiRow none none {} (row c y) ++ ([.reset] ++ (if y + 1 < c.h then [.newline] else []))))
      rw [hq, view_reset]
      by_cases hlast : k + 1 < c.h
      · rw [if_pos hlast]
        simp only [List.cons_append, List.nil_append, view]
        have := ih (k + 1) (by omega) (by omega)
        simp only [List.append_assoc, List.cons_append, List.nil_append] at this
        rw [this]
        simp [before]
      · have hn : n = 0 := by omega
        subst hn
        rw [if_neg hlast]
        simp [view, before]
  have := this c.h 0 (by omega) h
  unfold ansi
  rw [List.range_eq_range']
  exact this

/-- Two canvases of the same size whose snapshots agree look the same in every cell. -/
theorem ansi_tells (c d : Canvas) (hc : 0 < c.h) (hd : 0 < d.h) (h : ansi c = ansi d) :
    (List.range c.h).map (fun y => (row c y).map look) = (List.range d.h).map fun y => (row d y).map look := by
  rw [← ansi_view c hc, ← ansi_view d hd, h]

/-- C135: each line has as many columns as the canvas if all characters are narrow. -/
theorem ansi_columns_partial (wd : String → Nat) (c : Canvas) (hl : c.cells.length = c.w * c.h)
    (hw : ∀ cell ∈ c.cells, cell.continuation = false ∧ wd cell.symbol = 1) (hh : 0 < c.h) :
    ∀ l ∈ view {} (ansi c), columns wd l = c.w := by
  intro l hm
  rw [ansi_view c hh] at hm
  obtain ⟨y, hy, rfl⟩ := List.mem_map.1 hm
  have hlen : (row c y).length = c.w := by
    unfold row
    rw [List.length_take, List.length_drop, hl]
    have := List.mem_range.1 hy
    have : c.w * (y + 1) ≤ c.w * c.h := Nat.mul_le_mul_left _ (by omega)
    rw [Nat.mul_add, Nat.mul_one, Nat.mul_comm c.w y] at this
    omega
  have : ∀ r : List Cell, (∀ cell ∈ r, cell.continuation = false ∧ wd cell.symbol = 1) →
      columns wd (r.map look) = r.length := by
    intro r
    induction r with
    | nil => intro _; rfl
    | cons a r ih =>
      intro hr
      have h1 := hr a (by simp)
      have h2 := ih (fun x hx => hr x (by simp [hx]))
      unfold columns at h2 ⊢
      simp only [List.map_cons, List.sum_cons, List.length_cons]
      rw [h2]
      unfold look
      simp [h1]
      omega
  rw [this (row c y) (fun cell hcell => hw cell (List.mem_of_mem_drop (List.mem_of_mem_take hcell))), hlen]

/-- C135: a line with a wide character is a column too long: the blank for its second cell is written after it. -/
theorem ansi_wide_counterexample : ∃ c : Canvas, c.w = 2 ∧
    Whole (fun s => if s = "世" then 2 else 1) (row c 0) ∧
    (view {} (ansi c)).map (columns fun s => if s = "世" then 2 else 1) = [3] := by
  refine ⟨line [⟨"世", 2, false, none, none, {}⟩, ⟨" ", 0, true, none, none, {}⟩], rfl, ?_, by decide⟩
  exact Whole.char "世" none none {} [⟨" ", 0, true, none, none, {}⟩] [] (by decide) (by decide) (by simp) .nil

/-- A canvas of two rows meets the hypotheses. -/
example : (view {} (ansi ⟨2, 2, [⟨"a", 1, false, some ⟨1, 1, 1⟩, none, { bold := true }⟩, .blank, .blank, .blank], [], true, []⟩)).length = 2 := by
  decide

end Textual.Svg
