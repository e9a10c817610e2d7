import Verif.Model.Fuzzy
import Verif.Props.Markup
import Mathlib.Data.Rat.Defs
import Mathlib.Algebra.Order.Ring.Rat
import Mathlib.Tactic.Positivity
import Mathlib.Tactic.Linarith
import Mathlib.Tactic.Ring
import Mathlib.Tactic.FieldSimp
import Mathlib.Tactic.Push

/-!
# Fuzzy search and highlighting

C15 soundness, C16 completeness (false in general, see the counterexample), C17 highlighting.
-/

namespace Textual.Fuzzy
open Markup

/-- `offs` embeds `q` into `c`: increasing positions of `c` that carry the letters of `q` in order. -/
def Embeds (q c : List Char) (offs : List Nat) : Prop :=
  offs.Pairwise (· < ·) ∧ offs.map (c[·]?) = q.map some

/-- ASCII tables for the examples. -/
def asciiTables : Tables where
  lower := fun s => s.map Char.toLower
  alnum := Char.isAlphanum
  ws := fun c => c == ' '

/-! ### Pieces of the search -/

theorem score_pos (t : Tables) (c : List Char) {o : List Nat} (h : o ≠ []) : 0 < score t c o := by
  match o, h with
  | p :: ps, _ =>
    unfold score
    dsimp only
    have h1 : (0 : Rat) < ((p :: ps).length : Nat) := by simp; positivity
    have h2 : (0 : Rat) ≤ (((p :: ps).filter fun x => (firstLetters t false 0 c).contains x).length : Nat) :=
      Nat.cast_nonneg _
    have h3 : ∀ x : Rat, 0 < 1 + x * x := fun x => by nlinarith [mul_self_nonneg x]
    exact mul_pos (by linarith) (h3 _)

theorem find_some {q : List Char} : ∀ {c : List Char} {i : Nat}, find q c = some i →
    ∃ a b, c = a ++ q ++ b ∧ a.length = i
  | [], i, h => by
    unfold find at h
    split at h
    · rename_i hq
      simp at hq h
      subst hq; subst h
      exact ⟨[], [], rfl, rfl⟩
    · cases h
  | x :: c, i, h => by
    unfold find at h
    split at h
    · rename_i hp
      obtain ⟨b, hb⟩ := List.isPrefixOf_iff_prefix.1 hp
      simp at h; subst h
      exact ⟨[], b, by simp [hb], rfl⟩
    · simp only [Option.map_eq_some_iff] at h
      obtain ⟨j, hj, rfl⟩ := h
      obtain ⟨a, b, rfl, rfl⟩ := find_some hj
      exact ⟨x :: a, b, by simp, by simp⟩

theorem find_none {q : List Char} : ∀ {c : List Char}, find q c = none → ∀ a b, c ≠ a ++ q ++ b
  | [], h, a, b, e => by
    unfold find at h
    have : q = [] := by
      have := congrArg List.length e
      simp at this
      exact List.eq_nil_of_length_eq_zero (by omega)
    subst this
    simp at h
  | x :: c, h, a, b, e => by
    unfold find at h
    split at h
    · cases h
    · rename_i hp
      simp only [Option.map_eq_none_iff] at h
      cases a with
      | nil => exact hp (List.isPrefixOf_iff_prefix.2 ⟨b, by simpa using e.symm⟩)
      | cons y a =>
        simp only [List.cons_append, List.cons.injEq] at e
        exact find_none h a b (by simpa using e.2)

theorem scan_sound {l : Char} {last : Nat} : ∀ {cs : List Char} {i p : Nat}, p ∈ scan l last i cs →
    i ≤ p ∧ cs[p - i]? = some l
  | [], i, p, h => by simp [scan] at h
  | c :: cs, i, p, h => by
    unfold scan at h
    rcases List.mem_append.1 h with h | h
    · split at h
      · rename_i hc
        simp at h; subst h; simp [hc]
      · simp at h
    · split at h
      · simp at h
      · obtain ⟨h1, h2⟩ := scan_sound h
        refine ⟨by omega, ?_⟩
        obtain ⟨k, rfl⟩ : ∃ k, p = i + 1 + k := ⟨p - (i + 1), by omega⟩
        rw [show i + 1 + k - (i + 1) = k by omega] at h2
        rw [show i + 1 + k - i = k + 1 by omega]
        simpa using h2

theorem scan_complete {l : Char} {last : Nat} : ∀ {cs : List Char} {i k : Nat}, cs[k]? = some l →
    i + k < last → i + k ∈ scan l last i cs
  | [], i, k, h, _ => by simp at h
  | c :: cs, i, 0, h, _ => by
    simp at h
    unfold scan
    simp [h]
  | c :: cs, i, k + 1, h, hl => by
    simp at h
    unfold scan
    rw [if_neg (c := last ≤ i + 1) (by omega)]
    apply List.mem_append_right
    have := scan_complete (last := last) (i := i + 1) h (by omega)
    rwa [show i + 1 + k = i + (k + 1) by omega] at this

theorem scan_head {l : Char} {last : Nat} : ∀ {cs : List Char} {i x : Nat} {xs : List Nat},
    scan l last i cs = x :: xs → ∀ p ∈ x :: xs, x ≤ p
  | [], i, x, xs, h => by simp [scan] at h
  | c :: cs, i, x, xs, h => by
    intro p hp
    unfold scan at h
    by_cases hc : c = l
    · rw [if_pos hc] at h
      simp only [List.singleton_append, List.cons.injEq] at h
      have hx := h.1
      have : p ∈ scan l last i (c :: cs) := by
        unfold scan
        rw [if_pos hc, List.singleton_append, h.2, h.1]
        exact hp
      have := (scan_sound this).1
      omega
    · rw [if_neg hc, List.nil_append] at h
      split at h
      · cases h
      · exact scan_head h p hp

theorem letterPositions_sound {c : List Char} : ∀ {q : List Char} {o p : Nat} {all : List (List Nat)},
    letterPositions c o p q = some all →
    List.Forall₂ (fun l ps => ∀ x ∈ ps, c[x]? = some l) q all
  | [], o, p, all, h => by
    simp [letterPositions] at h; subst h; exact .nil
  | l :: q, o, p, all, h => by
    unfold letterPositions at h
    split at h
    · cases h
    · rename_i x xs hs
      simp only [Option.map_eq_some_iff] at h
      obtain ⟨r, hr, rfl⟩ := h
      refine .cons ?_ (letterPositions_sound hr)
      intro y hy
      rw [← hs] at hy
      obtain ⟨h1, h2⟩ := scan_sound hy
      rw [List.getElem?_drop] at h2
      rwa [show p + (y - p) = y by omega] at h2

theorem collect_sound : ∀ {all : List (List Nat)} {last : Option Nat} {o : List Nat},
    o ∈ collect last all →
    List.Forall₂ (· ∈ ·) o all ∧ o.Pairwise (· < ·) ∧ ∀ x ∈ o, after last x = true
  | [], last, o, h => by
    simp [collect] at h; subst h
    exact ⟨.nil, .nil, by simp⟩
  | ps :: all, last, o, h => by
    simp only [collect, List.mem_flatMap, List.mem_filter, List.mem_map] at h
    obtain ⟨p, ⟨hp, ha⟩, r, hr, rfl⟩ := h
    obtain ⟨h1, h2, h3⟩ := collect_sound hr
    refine ⟨.cons hp h1, List.pairwise_cons.2 ⟨fun x hx => by simpa [after] using h3 x hx, h2⟩, ?_⟩
    intro x hx
    rcases List.mem_cons.1 hx with rfl | hx
    · exact ha
    · have := h3 x hx
      cases last with
      | none => rfl
      | some l =>
        simp only [after, decide_eq_true_eq] at this ha ⊢
        omega

theorem collect_complete : ∀ {all : List (List Nat)} {last : Option Nat} {o : List Nat},
    List.Forall₂ (· ∈ ·) o all → o.Pairwise (· < ·) → (∀ x ∈ o, after last x = true) →
    o ∈ collect last all
  | [], last, o, h, _, _ => by cases h; simp [collect]
  | ps :: all, last, o, h, hp, ha => by
    cases h with
    | @cons x _ o' _ hx h' =>
      rw [List.pairwise_cons] at hp
      simp only [collect, List.mem_flatMap, List.mem_filter, List.mem_map]
      refine ⟨x, ⟨hx, ha x (by simp)⟩, o', ?_, rfl⟩
      exact collect_complete h' hp.2 fun y hy => by simpa [after] using hp.1 y hy

theorem best_spec (sc : List Nat → Rat) (choices : List (List Nat)) :
    (best sc choices = (0, []) ∨
      ((best sc choices).2 ∈ choices ∧ (best sc choices).1 = sc (best sc choices).2 ∧
        0 < (best sc choices).1)) ∧ ∀ o ∈ choices, sc o ≤ (best sc choices).1 := by
  have key : ∀ (l : List (List Nat)) (acc : Rat × List Nat),
      let r := l.foldl (fun acc o => if acc.1 < sc o then (sc o, o) else acc) acc
      (r = acc ∨ (r.2 ∈ l ∧ r.1 = sc r.2 ∧ acc.1 < r.1)) ∧ acc.1 ≤ r.1 ∧ ∀ o ∈ l, sc o ≤ r.1 := by
    intro l
    induction l with
    | nil => intro acc; exact ⟨Or.inl rfl, le_refl _, by simp⟩
    | cons x l ih =>
      intro acc
      simp only [List.foldl_cons]
      obtain ⟨h1, h2, h3⟩ := ih (if acc.1 < sc x then (sc x, x) else acc)
      generalize hr : l.foldl (fun acc o => if acc.1 < sc o then (sc o, o) else acc)
        (if acc.1 < sc x then (sc x, x) else acc) = r at h1 h2 h3 ⊢
      by_cases hx : acc.1 < sc x
      · rw [if_pos hx] at h1 h2
        refine ⟨Or.inr ?_, le_of_lt (lt_of_lt_of_le hx h2), ?_⟩
        · rcases h1 with rfl | ⟨a1, a2, a3⟩
          · exact ⟨by simp, rfl, hx⟩
          · exact ⟨by simp [a1], a2, lt_trans hx a3⟩
        · intro o ho
          rcases List.mem_cons.1 ho with rfl | ho
          · exact h2
          · exact h3 o ho
      · rw [if_neg hx] at h1 h2
        refine ⟨?_, h2, ?_⟩
        · rcases h1 with h1 | ⟨a1, a2, a3⟩
          · exact Or.inl h1
          · exact Or.inr ⟨by simp [a1], a2, a3⟩
        · intro o ho
          rcases List.mem_cons.1 ho with rfl | ho
          · exact le_trans (not_lt.1 hx) h2
          · exact h3 o ho
  obtain ⟨h1, _, h3⟩ := key choices (0, [])
  exact ⟨h1, h3⟩

theorem embeds_of_forall {q c : List Char} {all : List (List Nat)} {o : List Nat}
    (h1 : List.Forall₂ (fun l ps => ∀ x ∈ ps, c[x]? = some l) q all)
    (h2 : List.Forall₂ (· ∈ ·) o all) : o.map (c[·]?) = q.map some := by
  induction h1 generalizing o with
  | nil => cases h2; rfl
  | cons hl _ ih =>
    cases h2 with
    | cons hx h' => simp [hl _ hx, ih h']

theorem substring_embeds (q a b : List Char) :
    Embeds q (a ++ q ++ b) ((List.range q.length).map (a.length + ·)) := by
  refine ⟨?_, ?_⟩
  · rw [List.pairwise_map]
    exact List.pairwise_lt_range.imp fun h => by omega
  · apply List.ext_getElem?
    intro i
    by_cases h : i < q.length
    · simp [h, List.getElem?_append]
    · simp [h]

/-! ### The score -/

/-- The number of places where the next offset does not follow directly. -/
def jumps (o : List Nat) : Nat := (o.zip o.tail).countP fun p => decide (p.2 ≠ p.1 + 1)

/-- The character at `i` starts a word. -/
def StartsWord (t : Tables) (c : List Char) (i : Nat) : Prop :=
  (∃ x, c[i]? = some x ∧ isWord t x = true) ∧ ∀ j, i = j + 1 → ∀ y, c[j]? = some y → isWord t y = false

theorem firstLetters_mem (t : Tables) : ∀ (c : List Char) (inWord : Bool) (k i : Nat),
    i ∈ firstLetters t inWord k c ↔ ∃ n, i = k + n ∧ (∃ x, c[n]? = some x ∧ isWord t x = true) ∧
      (n = 0 → inWord = false) ∧ ∀ j, n = j + 1 → ∀ y, c[j]? = some y → isWord t y = false
  | [], _, _, _ => by simp [firstLetters]
  | x :: c, inWord, k, i => by
    unfold firstLetters
    rw [List.mem_append, firstLetters_mem t c]
    constructor
    · rintro (h | ⟨n, h1, h2, h3, h4⟩)
      · split at h
        · rename_i hx
          simp only [List.mem_singleton] at h
          simp only [Bool.and_eq_true, Bool.not_eq_true'] at hx
          exact ⟨0, by omega, ⟨x, rfl, hx.1⟩, fun _ => hx.2, fun j hj => by omega⟩
        · simp at h
      · refine ⟨n + 1, by omega, h2, fun h => by omega, ?_⟩
        intro j hj y hy
        have hjn : j = n := by omega
        subst hjn
        cases j with
        | zero => simp at hy; subst hy; exact h3 rfl
        | succ j => exact h4 j rfl y (by simpa using hy)
    · rintro ⟨n, h1, ⟨y, hy, hw⟩, h3, h4⟩
      cases n with
      | zero =>
        left
        simp only [List.getElem?_cons_zero, Option.some.injEq] at hy
        subst hy
        rw [if_pos (by simp [hw, h3 rfl])]
        simp [h1]
      | succ n =>
        right
        refine ⟨n, by omega, ⟨y, by simpa using hy, hw⟩, ?_, ?_⟩
        · intro h0; subst h0; exact h4 0 rfl x rfl
        · intro j hj z hz; exact h4 n rfl z (by subst hj; simpa using hz)

theorem startsWord_iff (t : Tables) (c : List Char) (i : Nat) :
    i ∈ firstLetters t false 0 c ↔ StartsWord t c i := by
  rw [firstLetters_mem]
  unfold StartsWord
  constructor
  · rintro ⟨n, h1, h2, _, h4⟩
    have : i = n := by omega
    subst this
    exact ⟨h2, h4⟩
  · rintro ⟨h1, h2⟩
    exact ⟨i, by omega, h1, fun _ => rfl, h2⟩

theorem breaks_eq_jumps (p : Nat) : ∀ ps : List Nat, breaks p ps = jumps (p :: ps)
  | [] => rfl
  | o :: os => by
    unfold breaks
    rw [breaks_eq_jumps o os]
    unfold jumps
    simp only [List.tail_cons, List.zip_cons_cons, List.countP_cons]
    split <;> rename_i h
    · simp [h]; omega
    · simp only [ne_eq, Decidable.not_not] at h
      simp [h]

/-- The score of a match: the number of letters plus the number of letters that start a word, times a
factor between one and two that falls with every jump. -/
theorem score_formula (t : Tables) (c : List Char) (o : List Nat) (h : o ≠ []) (starts : Nat → Bool)
    (hs : ∀ i, starts i = true ↔ StartsWord t c i) :
    score t c o = (o.length + o.countP starts) * (1 + ((o.length - jumps o) / o.length) ^ 2) := by
  match o, h with
  | p :: ps, _ =>
    have e : ((p :: ps).filter fun x => (firstLetters t false 0 c).contains x).length = (p :: ps).countP starts := by
      rw [List.countP_eq_length_filter]
      congr 1
      apply List.filter_congr
      intro x _
      rw [Bool.eq_iff_iff, hs, List.contains_iff_mem, startsWord_iff]
    unfold score
    simp only [e, breaks_eq_jumps]
    push_cast
    ring

/-- Of two matches of the same length with equally many word starts, the one with fewer jumps has the
higher score. -/
theorem score_fewer_jumps (t : Tables) (c c' : List Char) (o o' : List Nat) (h : o ≠ [])
    (hl : o.length = o'.length) (starts starts' : Nat → Bool)
    (hs : ∀ i, starts i = true ↔ StartsWord t c i) (hs' : ∀ i, starts' i = true ↔ StartsWord t c' i)
    (hc : o.countP starts = o'.countP starts') (hj : jumps o < jumps o') : score t c' o' < score t c o := by
  have h' : o' ≠ [] := by intro e; rw [e] at hl; simp at hl; exact h hl
  rw [score_formula t c o h starts hs, score_formula t c' o' h' starts' hs', ← hl, ← hc]
  have hlen : (0 : Rat) < o.length := by
    have : 0 < o.length := List.length_pos_iff.2 h
    exact_mod_cast this
  have hjl : jumps o' ≤ o'.length := by
    unfold jumps
    refine Nat.le_trans List.countP_le_length ?_
    simp
  have hjr : (jumps o' : Rat) ≤ o.length := by rw [hl]; exact_mod_cast hjl
  have hjj : (jumps o : Rat) < jumps o' := by exact_mod_cast hj
  have hcn : (0 : Rat) ≤ o.countP starts := Nat.cast_nonneg _
  refine mul_lt_mul_of_pos_left ?_ (by linarith)
  have h1 : (0 : Rat) ≤ (o.length - jumps o') / o.length := div_nonneg (by linarith) hlen.le
  have h2 : ((o.length : Rat) - jumps o') / o.length < (o.length - jumps o) / o.length :=
    div_lt_div_of_pos_right (by linarith) hlen
  nlinarith

example : score asciiTables "ab_b".toList [0, 3] < score asciiTables "ab_b".toList [0, 1] :=
  have hs := fun i => List.contains_iff_mem.trans (startsWord_iff asciiTables "ab_b".toList i)
  score_fewer_jumps asciiTables _ _ [0, 1] [0, 3] (by decide) rfl _ _ hs hs (by decide) (by decide)

/-! ### C15 -/

/-- The query and candidate that are compared: lower-cased unless the search is case sensitive. -/
def folded (t : Tables) (cs : Bool) (s : List Char) : List Char := if cs then s else t.lower s

/-- `match_candidate` on folded texts. -/
def matchFolded (t : Tables) (q c : List Char) : Rat × List Nat :=
  match find q c with
  | some start =>
    (score t c ((List.range q.length).map (start + ·)) * (if c = q then 2 else 3 / 2),
      (List.range q.length).map (start + ·))
  | none =>
    match letterPositions c 0 0 q with
    | none => (0, [])
    | some all => best (score t c) (collect none all)

theorem matchCandidate_eq (t : Tables) (cs : Bool) (query candidate : List Char) :
    matchCandidate t cs query candidate = if query.isEmpty || candidate.isEmpty then (0, [])
      else matchFolded t (folded t cs query) (folded t cs candidate) := rfl

/-- Offsets reported by a match embed the (folded) query into the (folded) candidate; offsets are
reported exactly when the score is positive. -/
theorem match_sound (t : Tables) (cs : Bool) (query candidate : List Char)
    (hq : folded t cs query ≠ []) :
    let r := matchCandidate t cs query candidate
    (0 < r.1 ↔ r.2 ≠ []) ∧ (r.2 ≠ [] → Embeds (folded t cs query) (folded t cs candidate) r.2) := by
  dsimp only
  rw [matchCandidate_eq]
  split
  · simp
  · generalize folded t cs query = q at hq ⊢
    generalize folded t cs candidate = c
    unfold matchFolded
    cases hf : find q c with
    | some start =>
      obtain ⟨a, b, rfl, rfl⟩ := find_some hf
      have hne : (List.range q.length).map (a.length + ·) ≠ [] := by
        have : 0 < q.length := List.length_pos_iff.2 hq
        simp; omega
      dsimp only
      refine ⟨⟨fun _ => hne, fun _ => ?_⟩, fun _ => substring_embeds q a b⟩
      have := score_pos t (a ++ q ++ b) hne
      refine mul_pos this ?_
      split <;> norm_num
    | none =>
      dsimp only
      cases hl : letterPositions c 0 0 q with
      | none => simp
      | some all =>
        dsimp only
        obtain ⟨h1, _⟩ := best_spec (score t c) (collect none all)
        rcases h1 with h1 | ⟨h1, h2, h3⟩
        · rw [h1]; simp
        · obtain ⟨c1, c2, c3⟩ := collect_sound h1
          have hemb : Embeds q c (best (score t c) (collect none all)).2 :=
            ⟨c2, embeds_of_forall (letterPositions_sound hl) c1⟩
          refine ⟨⟨fun _ he => ?_, fun _ => h3⟩, fun _ => hemb⟩
          have := hemb.2
          rw [he] at this
          simp at this
          exact hq this

/-- In particular, when folding works letter by letter, the offsets lie in the candidate itself and
its letters there fold to the letters of the query. -/
theorem match_sound_chars (t : Tables) (f : Char → Char) (hf : ∀ s, t.lower s = s.map f)
    (query candidate : List Char) :
    let r := matchCandidate t false query candidate
    r.2 ≠ [] → r.2.Pairwise (· < ·) ∧ (∀ o ∈ r.2, o < candidate.length) ∧
      r.2.map (fun o => (candidate[o]?).map f) = query.map fun c => some (f c) := by
  dsimp only
  intro hne
  by_cases hq : query = []
  · subst hq
    simp [matchCandidate] at hne
  · have := (match_sound t false query candidate (by simpa [folded, hf] using hq)).2 hne
    obtain ⟨h1, h2⟩ := this
    simp only [folded, hf] at h2
    refine ⟨h1, ?_, ?_⟩
    · intro o ho
      have : (candidate.map f)[o]? ∈ (matchCandidate t false query candidate).2.map
          ((candidate.map f)[·]?) := List.mem_map.2 ⟨o, ho, rfl⟩
      simp only [Bool.false_eq_true, if_false] at h2
      rw [h2] at this
      simp only [List.mem_map, exists_exists_and_eq_and] at this
      obtain ⟨x, _, hx⟩ := this
      have := List.getElem?_eq_some_iff.1 hx.symm
      obtain ⟨hlt, _⟩ := this
      simpa using hlt
    · simpa [List.map_map, Function.comp_def] using h2

/-- Lower-casing `İ` as Unicode does: two characters. -/
def dottedTables : Tables :=
  { asciiTables with lower := fun s => s.flatMap fun c => if c = 'İ' then ['i', '̇'] else [c] }

/-- Offsets are positions in the lower-cased candidate: with `İ` they can lie outside the candidate. -/
theorem match_offsets_counterexample : ∃ offs s,
    matchCandidate dottedTables false "b".toList "İb".toList = (s, offs) ∧ 0 < s ∧
      ¬ ∀ o ∈ offs, o < "İb".toList.length := by
  refine ⟨[2], 6, ?_, ?_, ?_⟩ <;> decide +kernel

example : (matchCandidate asciiTables false "fb".toList "foo bar baz".toList).2 = [0, 4] := by
  decide +kernel

/-! ### C16 -/

theorem letterPositions_complete {c : List Char} : ∀ {q : List Char} {o p : Nat} {e : List Nat},
    e.Pairwise (· < ·) → e.map (c[·]?) = q.map some → (∀ x ∈ e, p ≤ x) →
    (∀ (i x : Nat), e[i]? = some x → x + (o + i) < c.length) →
    ∃ all, letterPositions c o p q = some all ∧ List.Forall₂ (· ∈ ·) e all
  | [], o, p, e, _, he, _, _ => by
    have : e = [] := by
      have := congrArg List.length he
      simpa using this
    subst this
    exact ⟨[], rfl, .nil⟩
  | l :: q, o, p, [], _, he, _, _ => by simp at he
  | l :: q, o, p, x :: e, hp, he, hge, hin => by
    simp only [List.map_cons, List.cons.injEq] at he
    rw [List.pairwise_cons] at hp
    have hx := hge x (by simp)
    have hxl := hin 0 x rfl
    have hmem : x ∈ scan l (c.length - o) p (c.drop p) := by
      have := scan_complete (l := l) (last := c.length - o) (cs := c.drop p) (i := p) (k := x - p)
        (by rw [List.getElem?_drop, show p + (x - p) = x by omega]; exact he.1) (by omega)
      rwa [show p + (x - p) = x by omega] at this
    cases hs : scan l (c.length - o) p (c.drop p) with
    | nil => rw [hs] at hmem; simp at hmem
    | cons y ys =>
      rw [hs] at hmem
      have hy := scan_head hs x hmem
      obtain ⟨all, h1, h2⟩ := letterPositions_complete (c := c) (q := q) (o := o + 1) (p := y + 1) (e := e)
        hp.2 he.2 (fun z hz => by have := hp.1 z hz; omega)
        (fun i z hz => by have := hin (i + 1) z (by simpa using hz); omega)
      refine ⟨(y :: ys) :: all, ?_, .cons hmem h2⟩
      unfold letterPositions
      rw [hs]
      simp [h1]

/-- If the query embeds into the candidate with its `i`-th letter among all but the last `i`
characters, the match succeeds, and its score is at least that of the embedding. Missing from the
full claim: embeddings that reach further right (see the counterexample). -/
theorem match_complete_partial (t : Tables) (cs : Bool) (query candidate : List Char) (e : List Nat)
    (hq : folded t cs query ≠ [])
    (hnq : query ≠ []) (hnc : candidate ≠ [])
    (he : Embeds (folded t cs query) (folded t cs candidate) e)
    (hin : ∀ (i x : Nat), e[i]? = some x → x + i < (folded t cs candidate).length) :
    let r := matchCandidate t cs query candidate
    0 < r.1 ∧ ((¬ folded t cs query <:+: folded t cs candidate) →
      score t (folded t cs candidate) e ≤ r.1) := by
  dsimp only
  rw [matchCandidate_eq, if_neg (by simp [hnq, hnc])]
  unfold matchFolded
  generalize folded t cs query = q at hq he ⊢
  generalize folded t cs candidate = c at he hin ⊢
  have hne : e ≠ [] := by
    rintro rfl
    have := he.2
    simp at this
    exact hq this
  cases hf : find q c with
  | some start =>
    obtain ⟨a, b, rfl, rfl⟩ := find_some hf
    refine ⟨?_, fun h => absurd ⟨a, b, rfl⟩ h⟩
    have hne : (List.range q.length).map (a.length + ·) ≠ [] := by
      have : 0 < q.length := List.length_pos_iff.2 hq
      simp; omega
    refine mul_pos (score_pos t (a ++ q ++ b) hne) ?_
    split <;> norm_num
  | none =>
    obtain ⟨all, h1, h2⟩ := letterPositions_complete (o := 0) (p := 0) he.1 he.2 (by simp)
      (fun i x hx => by simpa using hin i x hx)
    rw [h1]
    dsimp only
    have hm := collect_complete h2 he.1 (last := none) (fun _ _ => rfl)
    have hb := (best_spec (score t c) (collect none all)).2 e hm
    exact ⟨lt_of_lt_of_le (score_pos t c hne) hb, fun _ => hb⟩

example : 0 < (matchCandidate asciiTables false "fb".toList "foo bar".toList).1 :=
  (match_complete_partial asciiTables false "fb".toList "foo bar".toList [0, 4] (by decide) (by decide)
    (by decide) ⟨by decide, by decide⟩ (by
      intro i x h
      match i, h with
      | 0, h => simp at h; subst h; decide
      | 1, h => simp at h; subst h; decide)).1

/-- `ab` is a subsequence of `a.b` but the search does not find it. -/
theorem match_complete_counterexample : "ab".toList.Sublist "a.b".toList ∧
    matchCandidate asciiTables true "ab".toList "a.b".toList = (0, []) := by
  refine ⟨by decide, by decide +kernel⟩

/-! ### C17 -/

/-- Spans left by the highlight loop. -/
def marks (ws : Char → Bool) (s : Markup.Style) (offsets : List Nat) :
    Nat → Nat → List Char → List Span
  | _, _, [] => []
  | start, i, c :: cs =>
    (if offsets.contains i && !ws c then [⟨start, start + c.utf8Size, s, []⟩] else []) ++
      marks ws s offsets (start + c.utf8Size) (i + 1) cs

theorem highlightLoop_run {ext : Ext} {style : List Char} {s : Markup.Style} (ws : Char → Bool)
    (hb : ∀ c ∈ style, c ≠ '[' ∧ c ≠ ']' ∧ c ≠ '\\') (hne : style ≠ []) (hs : style.head? ≠ some '/')
    (hp : Tag.parse ext style = .ok (.style s)) (hsty : s.isEmpty = false) (offsets : List Nat) :
    ∀ (cs : List Char) (i : Nat), ∃ ts, lexC ext.ws (highlightLoop ws style offsets i cs) = .ok ts ∧
      ∀ p : Parser, p.stack = [] → p.run ext ts = .ok
        { stack := [], output := p.output ++ cs,
          spans := p.spans ++ marks ws s offsets (blen p.output) i cs }
  | [], i => ⟨[], lexC_nil _, fun p h => by cases p; simp at h; simp [Parser.run, marks, h]⟩
  | c :: cs, i => by
    obtain ⟨ts, h1, h2⟩ := highlightLoop_run ws hb hne hs hp hsty offsets cs (i + 1)
    unfold highlightLoop
    by_cases hc : (offsets.contains i && !ws c) = true
    · rw [if_pos (by simp [hc, hne]; simpa using hc)]
      have hcl := lexC_close ext (t := []) (by simp) (highlightLoop ws style offsets (i + 1) cs)
      rw [h1] at hcl
      obtain ⟨t, ht, h3⟩ := lexC_escapeChar ext.ws c
        ('[' :: ('/' :: [] ++ ']' :: highlightLoop ws style offsets (i + 1) cs))
      rw [hcl] at h3
      have hop := lexC_open ext hb hne hs
        (escapeChar c ++ ('[' :: ('/' :: [] ++ ']' :: highlightLoop ws style offsets (i + 1) cs)))
      rw [h3] at hop
      refine ⟨.open style :: t :: .close none :: ts, ?_, fun p hst => ?_⟩
      · rw [show '[' :: style ++ ']' :: escapeChar c ++ "[/]".toList ++
            highlightLoop ws style offsets (i + 1) cs = '[' :: (style ++ ']' ::
              (escapeChar c ++ ('[' :: ('/' :: [] ++ ']' :: highlightLoop ws style offsets (i + 1) cs))))
            by simp, hop]
        rfl
      · have hpos := utf8Size_pos c
        have hcr : (Parser.mk [] (p.output ++ [c]) p.spans).createSpan ⟨s, [], blen p.output, style⟩ =
            Parser.mk [] (p.output ++ [c])
              (p.spans ++ [⟨blen p.output, blen p.output + c.utf8Size, s, []⟩]) := by
          unfold Parser.createSpan
          rw [if_pos (by simp [hsty, hpos])]
          simp
        simp only [Parser.run]
        rw [show p.step ext (.open style) = .ok (p.push s [] style) by
          simp [Parser.step, hp, Res.bind]]
        simp only [Res.bind]
        rw [step_write ext _ ht]
        simp only [Parser.step, Parser.pop, Parser.push, hst]
        rw [hcr, h2 _ rfl]
        simp only [marks]
        rw [if_pos hc]
        simp
    · rw [if_neg (by simp at hc ⊢; intro a b; rw [hc a] at b; cases b)]
      obtain ⟨t, ht, h3⟩ := lexC_escapeChar ext.ws c (highlightLoop ws style offsets (i + 1) cs)
      rw [h1] at h3
      refine ⟨t :: ts, by rw [h3]; rfl, fun p hst => ?_⟩
      simp only [Parser.run]
      rw [step_write ext _ ht]
      simp only [Res.bind]
      rw [h2 ⟨p.stack, p.output ++ [c], p.spans⟩ hst]
      simp only [marks]
      rw [if_neg hc]
      simp

theorem marks_start {ws : Char → Bool} {s : Markup.Style} {offsets : List Nat} :
    ∀ {cs : List Char} {start i : Nat}, ∀ m ∈ marks ws s offsets start i cs, start ≤ m.start
  | [], start, i, m, h => by simp [marks] at h
  | c :: cs, start, i, m, h => by
    unfold marks at h
    rcases List.mem_append.1 h with h | h
    · split at h
      · simp at h; subst h; exact Nat.le_refl _
      · simp at h
    · have := marks_start m h
      omega

theorem fold_skip {ws : Char → Bool} {s : Markup.Style} {offsets : List Nat} {cs : List Char}
    {start i o : Nat} (h : o < start) (acc : Markup.Style) :
    (marks ws s offsets start i cs).foldl
      (fun acc x => if x.contains o then acc.apply x.style else acc) acc = acc := by
  have : ∀ (l : List Span), (∀ m ∈ l, start ≤ m.start) → l.foldl
      (fun acc x => if x.contains o then acc.apply x.style else acc) acc = acc := by
    intro l
    induction l with
    | nil => intro _; rfl
    | cons m l ih =>
      intro hm
      rw [List.foldl_cons]
      have hc : m.contains o = false := by
        have := hm m (by simp)
        simp [Span.contains]; omega
      rw [hc]
      exact ih fun x hx => hm x (by simp [hx])
  exact this _ fun m hm => marks_start m hm

theorem marks_style {ws : Char → Bool} {s : Markup.Style} {offsets : List Nat} :
    ∀ (pre : List Char) {c : Char} {post : List Char} {start i : Nat},
    (marks ws s offsets start i (pre ++ c :: post)).foldl
      (fun acc x => if x.contains (start + blen pre) then acc.apply x.style else acc)
        ({} : Markup.Style) =
      if offsets.contains (i + pre.length) && !ws c then ({} : Markup.Style).apply s else {}
  | [], c, post, start, i => by
    have hpos := utf8Size_pos c
    simp only [List.nil_append, marks, List.foldl_append, blen_nil, Nat.add_zero, List.length_nil]
    refine (fold_skip (by omega) _).trans ?_
    split
    · simp [Span.contains, hpos]
    · rfl
  | x :: pre, c, post, start, i => by
    simp only [List.cons_append, marks, List.foldl_append]
    have ih := marks_style pre (ws := ws) (s := s) (offsets := offsets) (c := c) (post := post)
      (start := start + x.utf8Size) (i := i + 1)
    rw [show start + blen (x :: pre) = start + x.utf8Size + blen pre by simp; omega,
      show i + (x :: pre).length = i + 1 + pre.length by simp; omega, ← ih]
    congr 1
    split
    · simp [Span.contains]
    · rfl

theorem apply_default (s : Markup.Style) : ({} : Markup.Style).apply s = s := by
  cases s with
  | mk fg bg text => cases text; simp [Style.apply, TextStyle.apply]

/-- The markup produced by `highlight` parses back to the candidate; a character carries the match
style exactly when its index is one of the reported offsets and it is not white space. Holds for any
match style that is a plain tag naming a style (the default is `reverse`). -/
theorem highlight_roundtrip (ext : Ext) (t : Tables) (cs : Bool) (query style candidate : List Char)
    (s : Markup.Style) (hb : ∀ c ∈ style, c ≠ '[' ∧ c ≠ ']' ∧ c ≠ '\\')
    (hs : style.head? ≠ some '/')
    (hp : Tag.parse ext style = .ok (.style s)) (hsty : s ≠ {}) :
    ∃ m, parse ext (highlight t cs query style candidate) = .ok m ∧ m.text = candidate ∧
      ∀ pre c post, candidate = pre ++ c :: post → m.styleAt (blen pre) =
        if pre.length ∈ (matchCandidate t cs query candidate).2 ∧ t.ws c = false ∧
          0 < (matchCandidate t cs query candidate).1 then s else {} := by
  have hne : style ≠ [] := by rintro rfl; simp [Tag.parse, trim] at hp
  have hsty' : s.isEmpty = false := by
    cases h : s.isEmpty
    · rfl
    · exfalso; apply hsty
      have := apply_empty {} s h
      rwa [apply_default] at this
  unfold highlight
  dsimp only
  split
  · rename_i hle
    refine ⟨_, escape_roundtrip ext candidate, rfl, ?_⟩
    intro pre c post _
    rw [if_neg (by rintro ⟨_, _, h⟩; exact absurd h (not_lt.2 hle))]
    rfl
  · rename_i hgt
    obtain ⟨ts, h1, h2⟩ := highlightLoop_run t.ws hb hne hs hp hsty'
      (matchCandidate t cs query candidate).2 candidate 0
    refine ⟨⟨candidate, marks t.ws s (matchCandidate t cs query candidate).2 0 0 candidate⟩, ?_, rfl, ?_⟩
    · rw [parse_eq_lexC, h1]
      simp only [Res.bind]
      rw [h2 {} rfl]
      simp [Parser.closeAll]
    · intro pre c post he
      have := marks_style pre (ws := t.ws) (s := s) (offsets := (matchCandidate t cs query candidate).2)
        (c := c) (post := post) (start := 0) (i := 0)
      rw [← he, apply_default] at this
      simp only [Nat.zero_add] at this
      unfold Parsed.styleAt
      dsimp only
      rw [this]
      simp [not_le.1 hgt]

example : ∃ m, parse asciiExt (highlight asciiTables false "a[".toList "reverse".toList "x[a[".toList)
    = .ok m ∧ m.text = "x[a[".toList ∧ m.styleAt 2 = { text := { reverse := true } } ∧
      m.styleAt 1 = {} := by
  obtain ⟨m, h1, h2, h3⟩ := highlight_roundtrip asciiExt asciiTables false "a[".toList "reverse".toList
    "x[a[".toList { text := { reverse := true } } (by decide) (by decide) (by decide +kernel) (by decide)
  refine ⟨m, h1, h2, ?_, ?_⟩
  · have := h3 "x[".toList 'a' "[".toList (by decide)
    rw [show blen "x[".toList = 2 by decide] at this
    rw [this]
    decide +kernel
  · have := h3 "x".toList '[' "a[".toList (by decide)
    rw [show blen "x".toList = 1 by decide] at this
    rw [this]
    decide +kernel

end Textual.Fuzzy
