import Verif.Model.Provider
import Verif.Lemmas.Pieces
import Verif.Props.Palette
import Verif.Props.FromMarkup
import Mathlib.Order.Lattice
import Mathlib.Data.List.Lex

/-! The commands of the palette: C167 (rows), C168 (the exact title comes first), C169 (actions). -/

namespace Textual.Provider

open Textual.Fuzzy
open Textual.Markup (IsTag Piece Parsed escape escapeChar pieceSpans pieces_parse pieces_style)
open Textual.Palette (Palette Hit Entry)

/-! ### C168: the exact title -/

/-- The word starts of a text. -/
def starts (t : Tables) (c : List Char) (i : Nat) : Bool := (firstLetters t false 0 c).contains i

theorem starts_spec (t : Tables) (c : List Char) (i : Nat) : starts t c i = true ↔ StartsWord t c i := by
  unfold starts
  rw [List.contains_iff_mem, startsWord_iff]

theorem score_le (t : Tables) (c : List Char) {o : List Nat} (h : o ≠ []) :
    score t c o ≤ (o.length + o.countP (starts t c)) * 2 ∧
      (jumps o ≠ 0 → score t c o < (o.length + o.countP (starts t c)) * 2) := by
  rw [score_formula t c o h _ (starts_spec t c)]
  have hlen : (0 : Rat) < o.length := by
    have : 0 < o.length := List.length_pos_iff.2 h
    exact_mod_cast this
  have hjl : jumps o ≤ o.length := by
    unfold jumps
    refine Nat.le_trans List.countP_le_length ?_
    simp
  have hjr : (jumps o : Rat) ≤ o.length := by exact_mod_cast hjl
  have hj0 : (0 : Rat) ≤ jumps o := Nat.cast_nonneg _
  have hcn : (0 : Rat) ≤ o.countP (starts t c) := Nat.cast_nonneg _
  have h1 : (0 : Rat) ≤ (o.length - jumps o) / o.length := div_nonneg (by linarith) hlen.le
  have h2 : ((o.length : Rat) - jumps o) / o.length ≤ 1 := (div_le_one hlen).2 (by linarith)
  constructor
  · refine mul_le_mul_of_nonneg_left ?_ (by linarith)
    nlinarith
  · intro hj
    have hj1 : (0 : Rat) < jumps o := by exact_mod_cast Nat.pos_of_ne_zero hj
    have h3 : ((o.length : Rat) - jumps o) / o.length < 1 := (div_lt_one hlen).2 (by linarith)
    refine mul_lt_mul_of_pos_left ?_ (by linarith)
    nlinarith

theorem breaks_range' : ∀ (n p : Nat), breaks p (List.range' (p + 1) n) = 0
  | 0, _ => rfl
  | n + 1, p => by
    rw [List.range'_succ]
    unfold breaks
    rw [if_neg (by simp), breaks_range' n (p + 1)]

theorem breaks_zero : ∀ (ps : List Nat) (p : Nat), breaks p ps = 0 → ps = List.range' (p + 1) ps.length
  | [], _, _ => rfl
  | o :: os, p, h => by
    unfold breaks at h
    have ho : o = p + 1 := by
      by_contra hne
      rw [if_pos hne] at h
      omega
    subst ho
    rw [if_neg (by simp), Nat.zero_add] at h
    rw [List.length_cons, List.range'_succ, ← breaks_zero os (p + 1) h]

theorem infix_of_embeds {q c : List Char} {p n : Nat} (h : (List.range' p n).map (c[·]?) = q.map some) :
    ∃ a b, c = a ++ q ++ b := by
  have hl : n = q.length := by simpa using congrArg List.length h
  have hq : q = (c.drop p).take n := by
    apply List.ext_getElem?
    intro i
    have hi := congrArg (fun l : List (Option Char) => l[i]?) h
    rw [List.getElem?_map, List.getElem?_map] at hi
    by_cases hin : i < n
    · rw [List.getElem?_range' hin] at hi
      rw [List.getElem?_take_of_lt hin, List.getElem?_drop]
      rw [List.getElem?_eq_getElem (by omega : i < q.length)] at hi ⊢
      simpa using hi.symm
    · rw [List.getElem?_eq_none (by omega), List.getElem?_eq_none (by simp; omega)]
  refine ⟨c.take p, (c.drop p).drop n, ?_⟩
  rw [hq, List.append_assoc]
  conv_rhs => rw [List.take_append_drop, List.take_append_drop]

theorem find_self {q : List Char} (h : q ≠ []) : find q q = some 0 := by
  cases q with
  | nil => exact absurd rfl h
  | cons c cs =>
    unfold find
    rw [if_pos (by simp)]

theorem jumps_range {n : Nat} (h : n ≠ 0) : jumps (List.range n) = 0 := by
  obtain ⟨m, rfl⟩ := Nat.exists_eq_succ_of_ne_zero h
  rw [List.range_eq_range', List.range'_succ, ← breaks_eq_jumps]
  exact breaks_range' m 0

/-- The score of a text that is the query itself. -/
theorem exact_score (t : Tables) {q : List Char} (hq : q ≠ []) :
    (matchFolded t q q).1 = ((q.length : Rat) + ((List.range q.length).countP (starts t q) : Nat)) * 4 := by
  unfold matchFolded
  rw [find_self hq]
  dsimp only
  have hn : q.length ≠ 0 := by simpa using hq
  have e : (List.range q.length).map (0 + ·) = List.range q.length := by simp
  rw [if_pos rfl, e, score_formula t q _ (by simpa using hn) _ (starts_spec t q), jumps_range hn, List.length_range]
  have : (q.length : Rat) ≠ 0 := by exact_mod_cast hn
  rw [Nat.cast_zero, sub_zero, div_self this]
  ring

/-- No other text has as high a score as the query itself. -/
theorem exact_best (t : Tables) {q c : List Char} (hq : q ≠ []) (hc : c ≠ q) :
    (matchFolded t q c).1 < (matchFolded t q q).1 := by
  rw [exact_score t hq]
  have hn : 0 < q.length := List.length_pos_iff.2 hq
  have hnr : (0 : Rat) < q.length := by exact_mod_cast hn
  have hF : (0 : Rat) ≤ ((List.range q.length).countP (starts t q) : Nat) := Nat.cast_nonneg _
  unfold matchFolded
  cases hf : find q c with
  | some start =>
    obtain ⟨a, b, he, rfl⟩ := find_some hf
    dsimp only
    rw [if_neg hc]
    have hne : (List.range q.length).map (a.length + ·) ≠ [] := by simp; exact hq
    have h1 := (score_le t c hne).1
    have h2 : ((List.range q.length).map (a.length + ·)).countP (starts t c) ≤ (List.range q.length).countP (starts t q) := by
      rw [List.countP_map]
      apply List.countP_mono_left
      intro i hi hs
      have hi := List.mem_range.1 hi
      rw [starts_spec]
      obtain ⟨⟨x, hx, hw⟩, h3⟩ := (starts_spec t c _).1 hs
      have get : ∀ j, j < q.length → c[a.length + j]? = q[j]? := by
        intro j hj
        rw [he, List.append_assoc, List.getElem?_append_right (by omega), List.getElem?_append_left (by omega)]
        congr 1; omega
      refine ⟨⟨x, by rw [← get i hi]; exact hx, hw⟩, ?_⟩
      intro j hj y hy
      exact h3 (a.length + j) (by show a.length + i = _; omega) y (by rw [get j (by omega)]; exact hy)
    have h2r : ((((List.range q.length).map (a.length + ·)).countP (starts t c) : Nat) : Rat) ≤
        ((List.range q.length).countP (starts t q) : Nat) := by exact_mod_cast h2
    rw [List.length_map, List.length_range] at h1
    linarith
  | none =>
    dsimp only
    cases hl : letterPositions c 0 0 q with
    | none => dsimp only; nlinarith
    | some all =>
      dsimp only
      obtain ⟨h1, _⟩ := best_spec (score t c) (collect none all)
      rcases h1 with h1 | ⟨h1, h2, h3⟩
      · rw [h1]; dsimp only; nlinarith
      · obtain ⟨c1, c2, _⟩ := collect_sound h1
        have hemb : (best (score t c) (collect none all)).2.map (c[·]?) = q.map some :=
          embeds_of_forall (letterPositions_sound hl) c1
        rw [h2]
        generalize (best (score t c) (collect none all)).2 = o at hemb
        have hol : o.length = q.length := by simpa using congrArg List.length hemb
        have hj : jumps o ≠ 0 := by
          intro hj
          cases o with
          | nil => rw [List.length_nil] at hol; omega
          | cons p ps =>
            rw [← breaks_eq_jumps] at hj
            have e := breaks_zero ps p hj
            have e2 : p :: ps = List.range' p (ps.length + 1) := by rw [List.range'_succ, ← e]
            rw [e2] at hemb
            obtain ⟨a, b, hab⟩ := infix_of_embeds hemb
            exact find_none hf a b hab
        have hone : o ≠ [] := by rintro rfl; rw [List.length_nil] at hol; omega
        have h4 := (score_le t c hone).2 hj
        have h5 : o.countP (starts t c) ≤ q.length := hol ▸ List.countP_le_length
        have h5r : ((o.countP (starts t c) : Nat) : Rat) ≤ q.length := by exact_mod_cast h5
        rw [hol] at h4
        linarith

/-- C168: of all the commands found by a query, those whose title is the query (in whatever case) have the
highest score, and all others a lower one. -/
theorem exact_highest (t : Tables) (query a b : List Char) (hq : t.lower query ≠ []) (hn : query ≠ []) (ha : a ≠ [])
    (he : t.lower a = t.lower query) (hb : t.lower b ≠ t.lower query) :
    (matchCandidate t false query b).1 < (matchCandidate t false query a).1 := by
  rw [matchCandidate_eq t false query a, matchCandidate_eq t false query b,
    if_neg (c := (query.isEmpty || a.isEmpty) = true) (by simp [hn, ha])]
  simp only [folded, Bool.false_eq_true, if_false]
  rw [he]
  split
  · rw [exact_score t hq]
    have : (0 : Rat) < (t.lower query).length := by
      have := List.length_pos_iff.2 hq
      exact_mod_cast this
    have hF : (0 : Rat) ≤ ((List.range (t.lower query).length).countP (starts t (t.lower query)) : Nat) := Nat.cast_nonneg _
    dsimp only
    linarith
  · exact exact_best t hq hb

example : (matchCandidate asciiTables false "quit".toList "Quit now".toList).1 <
    (matchCandidate asciiTables false "quit".toList "Quit".toList).1 :=
  exact_highest asciiTables _ _ _ (by decide) (by decide) (by decide) (by decide) (by decide)

/-- The command lists a palette asks. -/
def Asks (t : Tables) (p : Palette) (lists : List (List Command)) : Prop :=
  List.Forall₂ (fun pr cs => pr = simple t cs ∨ pr = system t cs) p.providers lists

theorem answer_search {t : Tables} {pr : Palette.Provider} {cs : List Command} (h : pr = simple t cs ∨ pr = system t cs)
    (n : Nat) {query : List Char} (hq : query ≠ []) : pr n query = search t matchStyle query cs := by
  rcases h with rfl | rfl
  · unfold simple; rw [if_neg (by simpa using hq)]
  · unfold system; rw [if_neg (by simpa using hq)]

theorem mem_search {t : Tables} {style query : List Char} {cs : List Command} {h : Hit} :
    h ∈ search t style query cs ↔
      ∃ c ∈ cs, 0 < (matchCandidate t false query c.name).1 ∧ h = c.found t style query := by
  unfold search
  rw [List.mem_filterMap]
  constructor
  · rintro ⟨c, hc, h⟩
    split at h
    · next hp => exact ⟨c, hc, hp, (Option.some.inj h).symm⟩
    · cases h
  · rintro ⟨c, hc, hp, rfl⟩
    exact ⟨c, hc, by rw [if_pos hp]⟩

/-- C168: once every answer to what was typed has been received, the first row is a command whose title is what was
typed (in whatever case), if there is one. -/
theorem exact_first {seg : List Char → List (List Char)} {ws : Char → Bool} (t : Tables) (r : Bool)
    (ps : List Palette.Provider) (ops : List Palette.Palette.Op) (lists : List (List Command)) :
    let p := Palette.run seg ws (Palette.start r ps) ops
    let query := Palette.Palette.trim ws p.input.value
    p.visible = true → p.selectedAction = none →
    (∀ u ∈ p.tasks ++ p.channel, u.gen = p.generation → u = .showBusy p.generation) →
    Asks t p lists → query ≠ [] → t.lower query ≠ [] →
    (∃ cs ∈ lists, ∃ c ∈ cs, c.name ≠ [] ∧ t.lower c.name = t.lower query) →
    ∃ e rest, p.entries = e :: rest ∧
      ∃ cs ∈ lists, ∃ c ∈ cs, t.lower c.name = t.lower query ∧ e.text = c.name ∧ e.action = some c.action := by
  intro p query hv ha hno hasks hq hlq hex
  obtain ⟨order, arrived, hperm, harr, h1, _, _, hbest, _, _⟩ := Palette.results_exact (seg := seg) (ws := ws) r ps ops hv ha hno
  -- the hits are those of the lists
  have hans : ∀ h : Hit, h ∈ arrived ↔ ∃ cs ∈ lists, h ∈ search t matchStyle query cs := by
    intro h
    rw [harr, List.mem_flatten]
    have hmem : ∀ l, l ∈ order ↔ ∃ cs ∈ lists, l = search t matchStyle query cs := by
      intro l
      rw [hperm.mem_iff, List.mem_map]
      constructor
      · rintro ⟨pr, hpr, rfl⟩
        obtain ⟨i, hi, rfl⟩ := List.getElem_of_mem hpr
        have hl := hasks.length_eq
        refine ⟨lists[i]'(hl ▸ hi), List.getElem_mem _, ?_⟩
        exact answer_search (List.forall₂_iff_get.1 hasks |>.2 i hi (hl ▸ hi)) _ hq
      · rintro ⟨cs, hcs, rfl⟩
        obtain ⟨i, hi, rfl⟩ := List.getElem_of_mem hcs
        have hl := hasks.length_eq
        refine ⟨p.providers[i]'(hl ▸ hi), List.getElem_mem _, ?_⟩
        exact answer_search (List.forall₂_iff_get.1 hasks |>.2 i (hl ▸ hi) hi) _ hq
    constructor
    · rintro ⟨l, hl, hh⟩
      obtain ⟨cs, hcs, rfl⟩ := (hmem l).1 hl
      exact ⟨cs, hcs, hh⟩
    · rintro ⟨cs, hcs, hh⟩
      exact ⟨_, (hmem _).2 ⟨cs, hcs, rfl⟩, hh⟩
  obtain ⟨cs, hcs, c, hc, hcn, hce⟩ := hex
  have hpos : 0 < (matchCandidate t false query c.name).1 := by
    rw [matchCandidate_eq, if_neg (by simp [hq, hcn])]
    simp only [folded, Bool.false_eq_true, if_false]
    rw [hce, exact_score t hlq]
    have : (0 : Rat) < (t.lower query).length := by
      have := List.length_pos_iff.2 hlq
      exact_mod_cast this
    have hF : (0 : Rat) ≤ ((List.range (t.lower query).length).countP (starts t (t.lower query)) : Nat) := Nat.cast_nonneg _
    linarith
  have hmem : c.found t matchStyle query ∈ arrived := (hans _).2 ⟨cs, hcs, mem_search.2 ⟨c, hc, hpos, rfl⟩⟩
  have hp := (h1 (List.ne_nil_of_mem hmem)).1
  have hof : ∀ e ∈ p.entries, ∃ cs ∈ lists, ∃ c ∈ cs, ∃ k, e = Entry.ofHit (c.found t matchStyle query) k := by
    intro e he
    have he := hp.mem_iff.1 he
    rw [List.mem_mapIdx] at he
    obtain ⟨i, hi, rfl⟩ := he
    obtain ⟨cs, hcs, hs⟩ := (hans _).1 (List.getElem_mem hi)
    obtain ⟨c, hc, _, e⟩ := mem_search.1 hs
    exact ⟨cs, hcs, c, hc, i + 1, by rw [e]⟩
  obtain ⟨k, e0, he0⟩ : ∃ k, ∃ e ∈ p.entries, e = Entry.ofHit (c.found t matchStyle query) k := by
    obtain ⟨i, hi, he⟩ := List.getElem_of_mem hmem
    refine ⟨i + 1, _, hp.mem_iff.2 (List.mem_mapIdx.2 ⟨i, hi, rfl⟩), by rw [he]⟩
  cases hent : p.entries with
  | nil => rw [hent] at he0; simp at he0
  | cons e rest =>
    refine ⟨e, rest, rfl, ?_⟩
    obtain ⟨cs', hcs', c', hc', k', hek⟩ := hof e (by rw [hent]; simp)
    refine ⟨cs', hcs', c', hc', ?_, by rw [hek]; rfl, by rw [hek]; rfl⟩
    by_contra hne
    have hlt := exact_highest t query c.name c'.name hlq hq hcn hce hne
    rw [show Palette.run seg ws (Palette.start r ps) ops = p from rfl, hent] at hbest
    have hscore : ∀ (c : Command) k, (Entry.ofHit (c.found t matchStyle query) k).score =
        (matchCandidate t false query c.name).1 := fun _ _ => rfl
    rw [hent] at he0
    rcases List.mem_cons.1 he0.1 with h | h
    · rw [he0.2, hek] at h
      have := congrArg Entry.score h
      rw [hscore, hscore] at this
      linarith
    · have := (List.pairwise_cons.1 hbest).1 _ h
      rw [he0.2, hek, hscore, hscore] at this
      rcases this with h | h
      · linarith
      · linarith [h.1]

/-- A palette asked for `quit`. -/
def demo : Palette :=
  Palette.run Palette.chars Palette.blank
    (Palette.start true [simple asciiTables [{ name := "Quit now".toList, action := "a".toList },
      { name := "Quit".toList, action := "b".toList }]])
    [.openPalette none, .key (.char 'q'), .key (.char 'u'), .key (.char 'i'), .key (.char 't'), .finish 9, .receive false]

example : demo.visible = true ∧ demo.selectedAction = none ∧
    (∀ u ∈ demo.tasks ++ demo.channel, u.gen = demo.generation → u = .showBusy demo.generation) ∧
    demo.entries.map (·.text) = ["Quit".toList, "Quit now".toList] := by decide +kernel

/-! ### C167: what is listed -/

/-- C167: the hits are some of the commands, in their order, each with its own title, action and help. A command is
among them only if the letters of the query occur in its title in their order, and always if the query occurs in
it as a whole.
Missing (`match_complete_counterexample` of C16): letters that occur in order but too far to the right. -/
theorem search_partial (t : Tables) (style query : List Char) (cs : List Command) (hq : t.lower query ≠ [])
    (hn : query ≠ []) : ∃ f : Command → Bool,
    (search t style query cs).map (fun h => (h.text, h.action, h.help)) =
      (cs.filter f).map (fun c => (c.name, c.action, c.help)) ∧
    (∀ c, f c = true → ∃ offs, Embeds (t.lower query) (t.lower c.name) offs) ∧
    (∀ c, c.name ≠ [] → t.lower query <:+: t.lower c.name → f c = true) := by
  refine ⟨fun c => decide (0 < (matchCandidate t false query c.name).1), ?_, ?_, ?_⟩
  · unfold search
    induction cs with
    | nil => rfl
    | cons c cs ih =>
      rw [List.filterMap_cons]
      by_cases h : 0 < (matchCandidate t false query c.name).1
      · rw [if_pos h, List.filter_cons_of_pos (by simpa using h)]
        dsimp only
        rw [List.map_cons, List.map_cons, ih]
        rfl
      · rw [if_neg h, List.filter_cons_of_neg (by simpa using h)]
        exact ih
  · intro c h
    have h := of_decide_eq_true h
    have := match_sound t false query c.name (by simpa [folded] using hq)
    dsimp only at this
    exact ⟨_, by simpa [folded] using this.2 (this.1.1 h)⟩
  · intro c hc hi
    apply decide_eq_true
    rw [matchCandidate_eq, if_neg (by simp [hn, hc])]
    simp only [folded, Bool.false_eq_true, if_false]
    generalize t.lower query = q at hq hi
    generalize t.lower c.name = n at hi
    unfold matchFolded
    cases hf : find q n with
    | none => obtain ⟨a, b, e⟩ := hi; exact absurd e.symm (find_none hf a b)
    | some st =>
      dsimp only
      have hne : (List.range q.length).map (st + ·) ≠ [] := by simp; exact hq
      exact mul_pos (score_pos t n hne) (by split <;> norm_num)

example : (search asciiTables matchStyle "it".toList
    [{ name := "Quit".toList, action := [] }, { name := "Keys".toList, action := [] },
      { name := "Input text".toList, action := [] }]).map (·.text) = ["Quit".toList, "Input text".toList] := by
  decide +kernel

/-- The look of the matching letters. -/
def matched : Markup.Style := { text := { bold := true, underline := true } }
/-- The look of the help. -/
def dimmed : Markup.Style := { text := { dim := true } }

theorem matchStyle_tag : IsTag FromMarkup.ext matchStyle matched :=
  ⟨by decide, by decide, by decide +kernel, by decide⟩

theorem dim_tag : IsTag FromMarkup.ext "dim".toList dimmed :=
  ⟨by decide, by decide, by decide +kernel, by decide⟩

/-- The pieces of a title with the letters at `offs` marked. -/
def titlePieces (ws : Char → Bool) (offs : List Nat) : Nat → List Char → List Piece
  | _, [] => []
  | i, c :: cs => (if offs.contains i && !ws c then ⟨some matchStyle, matched, [c]⟩ else ⟨none, {}, [c]⟩) ::
      titlePieces ws offs (i + 1) cs

theorem titlePieces_src (ws : Char → Bool) (offs : List Nat) : ∀ (cs : List Char) (i : Nat),
    (titlePieces ws offs i cs).flatMap Piece.src = highlightLoop ws matchStyle offs i cs
  | [], _ => rfl
  | c :: cs, i => by
    unfold titlePieces highlightLoop
    rw [List.flatMap_cons, titlePieces_src ws offs cs]
    congr 1
    have hs : matchStyle.isEmpty = false := by decide
    rw [hs]
    have he : escape [c] = escapeChar c := by simp [escape]
    by_cases h : (offs.contains i && !ws c) = true
    · rw [if_pos h, if_pos (by simpa using h)]
      unfold Piece.src
      dsimp only
      rw [he]
    · rw [if_neg h, if_neg (by simpa using h)]
      unfold Piece.src
      dsimp only
      rw [he]

theorem titlePieces_text (ws : Char → Bool) (offs : List Nat) : ∀ (cs : List Char) (i : Nat),
    (titlePieces ws offs i cs).flatMap (·.text) = cs
  | [], _ => rfl
  | c :: cs, i => by
    unfold titlePieces
    rw [List.flatMap_cons, titlePieces_text ws offs cs]
    split <;> rfl

theorem titlePieces_ok (ws : Char → Bool) (offs : List Nat) : ∀ (cs : List Char) (i : Nat),
    ∀ x ∈ titlePieces ws offs i cs, x.Ok FromMarkup.ext
  | [], _, x, h => by simp [titlePieces] at h
  | c :: cs, i, x, h => by
    unfold titlePieces at h
    rcases List.mem_cons.1 h with rfl | h
    · split
      · exact matchStyle_tag
      · exact (rfl : ({} : Markup.Style) = {})
    · exact titlePieces_ok ws offs cs (i + 1) x h

theorem titlePieces_append (ws : Char → Bool) (offs : List Nat) (c : Char) (post : List Char) :
    ∀ (pre : List Char) (i : Nat), titlePieces ws offs i (pre ++ c :: post) = titlePieces ws offs i pre ++
      (if offs.contains (i + pre.length) && !ws c then ⟨some matchStyle, matched, [c]⟩ else ⟨none, {}, [c]⟩) ::
        titlePieces ws offs (i + pre.length + 1) post
  | [], i => by
    rw [List.nil_append, titlePieces]
    simp [titlePieces]
  | p :: pre, i => by
    rw [List.cons_append, titlePieces, titlePieces_append ws offs c post pre (i + 1)]
    conv_rhs => rw [titlePieces]
    rw [List.length_cons, show i + 1 + pre.length = i + (pre.length + 1) by omega]
    rfl

/-- The pieces of the help. -/
def helpPieces : Option (List Char) → List Piece
  | none => []
  | some h => [⟨none, {}, ['\n']⟩, ⟨some "dim".toList, dimmed, h⟩]

theorem helpPieces_ok (help : Option (List Char)) : ∀ x ∈ helpPieces help, x.Ok FromMarkup.ext := by
  cases help with
  | none => simp [helpPieces]
  | some h =>
    intro x hx
    simp only [helpPieces, List.mem_cons, List.not_mem_nil, or_false] at hx
    rcases hx with rfl | rfl
    · exact (rfl : ({} : Markup.Style) = {})
    · exact dim_tag

theorem prompt_pieces (ps : List Piece) (help : Option (List Char)) :
    Palette.buildPrompt (ps.flatMap Piece.src) help = (ps ++ helpPieces help).flatMap Piece.src := by
  rw [List.flatMap_append]
  cases help with
  | none => simp [helpPieces, Palette.buildPrompt]
  | some h => simp [helpPieces, Palette.buildPrompt, Piece.src, escape, escapeChar]

/-- A row shows the title, with the letters that `marked` tells bold and underlined, and under it the help, dimmed. -/
def Shows (row : List Char) (title : List Char) (help : Option (List Char)) (marked : Nat → Char → Prop) : Prop :=
  ∃ m, Markup.parse FromMarkup.ext row = .ok m ∧
    m.text = title ++ (match help with
      | none => []
      | some h => '\n' :: h) ∧
    (∀ pre c post, title = pre ++ c :: post →
      (marked pre.length c → m.styleAt (Markup.blen pre) = matched) ∧
      (¬ marked pre.length c → m.styleAt (Markup.blen pre) = {})) ∧
    (∀ pre c post, help = some (pre ++ c :: post) →
      m.styleAt (Markup.blen title + Markup.blen ['\n'] + Markup.blen pre) = dimmed)

theorem shows_pieces (ws : Char → Bool) (offs : List Nat) (title : List Char) (help : Option (List Char)) :
    Shows (Palette.buildPrompt ((titlePieces ws offs 0 title).flatMap Piece.src) help) title help
      (fun i c => i ∈ offs ∧ ws c = false) := by
  have hok : ∀ x ∈ titlePieces ws offs 0 title ++ helpPieces help, x.Ok FromMarkup.ext := by
    intro x hx
    rcases List.mem_append.1 hx with hx | hx
    · exact titlePieces_ok ws offs title 0 x hx
    · exact helpPieces_ok help x hx
  rw [prompt_pieces]
  refine ⟨_, pieces_parse FromMarkup.ext _ hok, ?_, ?_, ?_⟩
  · dsimp only
    rw [List.flatMap_append, titlePieces_text]
    cases help <;> simp [helpPieces]
  · intro pre c post he
    have e := titlePieces_append ws offs c post pre 0
    rw [← he, Nat.zero_add] at e
    rw [e] at hok ⊢
    rw [List.append_assoc, List.cons_append] at hok ⊢
    have h := pieces_style FromMarkup.ext (titlePieces ws offs 0 pre) _ _ hok [] c [] (by split <;> rfl)
    have hz : Markup.blen ((titlePieces ws offs 0 pre).flatMap (·.text)) + Markup.blen [] = Markup.blen pre := by
      rw [titlePieces_text]; rfl
    rw [hz] at h
    rw [h]
    constructor
    · intro hm
      rw [if_pos (by simpa using hm)]
    · intro hm
      rw [if_neg (by simpa using hm)]
  · intro pre c post he
    subst he
    have e : titlePieces ws offs 0 title ++ helpPieces (some (pre ++ c :: post)) =
        (titlePieces ws offs 0 title ++ [⟨none, {}, ['\n']⟩]) ++ ⟨some "dim".toList, dimmed, pre ++ c :: post⟩ :: [] := by
      simp [helpPieces]
    rw [e] at hok ⊢
    have h := pieces_style FromMarkup.ext _ _ _ hok pre c post rfl
    have hz : Markup.blen ((titlePieces ws offs 0 title ++ [(⟨none, {}, ['\n']⟩ : Piece)]).flatMap (·.text)) =
        Markup.blen title + Markup.blen ['\n'] := by
      rw [List.flatMap_append, titlePieces_text, Markup.blen_append]; rfl
    rw [hz] at h
    exact h

/-- C167: the row of a command that was found shows its title and its help; of the title exactly letters that make
up the query are bold and underlined (not white space, which cannot be). -/
theorem found_row (t : Tables) (query : List Char) (cs : List Command) (h : Hit) (k : Nat)
    (hq : t.lower query ≠ []) (hh : h ∈ search t matchStyle query cs) :
    ∃ c ∈ cs, h.text = c.name ∧ h.action = c.action ∧ h.help = c.help ∧
      ∃ offs, Embeds (t.lower query) (t.lower c.name) offs ∧
        Shows (Entry.ofHit h k).display c.name c.help (fun i ch => i ∈ offs ∧ t.ws ch = false) := by
  obtain ⟨c, hc, hp, rfl⟩ := mem_search.1 hh
  refine ⟨c, hc, rfl, rfl, rfl, (matchCandidate t false query c.name).2, ?_, ?_⟩
  · have := match_sound t false query c.name (by simpa [folded] using hq)
    dsimp only at this
    simpa [folded] using this.2 (this.1.1 hp)
  · have := shows_pieces t.ws (matchCandidate t false query c.name).2 c.name c.help
    rw [titlePieces_src] at this
    show Shows (Palette.buildPrompt (highlight t false query matchStyle c.name) c.help) _ _ _
    unfold highlight
    dsimp only
    rw [if_neg (not_le.2 hp)]
    exact this

/-- C167: the row of a command that is offered shows its title as it is, brackets and all, and its help. -/
theorem offered_row (c : Command) (k : Nat) :
    Shows (Entry.ofHit c.offered k).display c.name c.help (fun _ _ => False) := by
  have := shows_pieces (fun _ => false) [] c.name c.help
  rw [titlePieces_src] at this
  have e : ∀ (s : List Char) i, highlightLoop (fun _ => false) matchStyle [] i s = escape s := by
    intro s
    induction s with
    | nil => intro i; rfl
    | cons c s ih => intro i; unfold highlightLoop; rw [ih]; simp [escape]
  rw [e] at this
  obtain ⟨m, h1, h2, h3, h4⟩ := this
  exact ⟨m, h1, h2, fun pre ch post he => ⟨fun h => h.elim, fun _ => (h3 pre ch post he).2 (by simp)⟩, h4⟩

example : (Entry.ofHit (Command.offered { name := "[x]".toList, action := [], help := some "h".toList }) 1).display =
    "\\[x\\]\n[dim]h[/]".toList := by decide +kernel

/-! ### Sorting -/

theorem insertTitle_perm (a : Command) : ∀ l, (insertTitle a l).Perm (a :: l)
  | [] => List.Perm.refl _
  | b :: bs => by
    unfold insertTitle
    split
    · exact ((insertTitle_perm a bs).cons b).trans (List.Perm.swap _ _ _)
    · exact List.Perm.refl _

theorem sortTitles_perm : ∀ l, (sortTitles l).Perm l
  | [] => List.Perm.refl _
  | a :: l => (insertTitle_perm a _).trans ((sortTitles_perm l).cons a)

theorem insertTitle_sorted (a : Command) : ∀ l, l.Pairwise (fun a b => ¬ b.name < a.name) →
    (insertTitle a l).Pairwise (fun a b => ¬ b.name < a.name)
  | [], _ => by simp [insertTitle]
  | b :: bs, h => by
    obtain ⟨h1, h2⟩ := List.pairwise_cons.1 h
    unfold insertTitle
    split
    · next hlt =>
      refine List.pairwise_cons.2 ⟨?_, insertTitle_sorted a bs h2⟩
      intro x hx
      rcases List.mem_cons.1 ((insertTitle_perm a bs).mem_iff.1 hx) with rfl | hx
      · exact List.lt_asymm hlt
      · exact h1 x hx
    · next hge =>
      refine List.pairwise_cons.2 ⟨?_, h⟩
      intro x hx
      rcases List.mem_cons.1 hx with rfl | hx
      · exact hge
      · exact List.not_lt.2 (List.le_trans (List.not_lt.1 hge) (List.not_lt.1 (h1 x hx)))

theorem sortTitles_sorted : ∀ l, (sortTitles l).Pairwise (fun a b => ¬ b.name < a.name)
  | [] => List.Pairwise.nil
  | a :: l => insertTitle_sorted a _ (sortTitles_sorted l)

theorem insertTitle_stable (n : List Char) (a : Command) : ∀ l,
    (insertTitle a l).filter (fun c => decide (c.name = n)) = (a :: l).filter (fun c => decide (c.name = n))
  | [] => rfl
  | b :: bs => by
    unfold insertTitle
    split
    · next hlt =>
      rw [List.filter_cons, insertTitle_stable n a bs]
      by_cases ha : a.name = n
      · have hb : ¬ b.name = n := by rintro h; rw [h, ha] at hlt; exact List.lt_irrefl _ hlt
        simp [List.filter_cons, ha, hb]
      · simp [List.filter_cons, ha]
    · rfl

theorem sortTitles_stable (n : List Char) : ∀ l,
    (sortTitles l).filter (fun c => decide (c.name = n)) = l.filter (fun c => decide (c.name = n))
  | [] => rfl
  | a :: l => by
    rw [sortTitles, insertTitle_stable, List.filter_cons, List.filter_cons, sortTitles_stable n l]

/-- A provider that offers these commands without a query gets them listed in this order. -/
theorem offered_listed {seg : List Char → List (List Char)} {ws : Char → Bool} (r : Bool)
    (ps : List Palette.Provider) (ops : List Palette.Palette.Op) (pr : Palette.Provider) (l : List Command)
    (hl : ∀ n, pr n [] = l.map Command.offered) :
    let p := Palette.run seg ws (Palette.start r ps) ops
    p.visible = true → p.selectedAction = none →
    (∀ u ∈ p.tasks ++ p.channel, u.gen = p.generation → u = .showBusy p.generation) →
    p.providers = [pr] → Palette.Palette.trim ws p.input.value = [] →
    p.entries.map (fun e => (e.text, e.action, e.help)) = l.map (fun c => (c.name, some c.action, c.help)) := by
  intro p hv ha hno hpr hq
  obtain ⟨order, arrived, hperm, harr, h1, _, h3, hbest, _, _⟩ := Palette.results_exact (seg := seg) (ws := ws) r ps ops hv ha hno
  have hord : order = [l.map Command.offered] := by
    have e : order.Perm [l.map Command.offered] := by
      refine hperm.trans ?_
      rw [show Palette.run seg ws (Palette.start r ps) ops = p from rfl, hpr, hq]
      simp [hl]
    exact List.perm_singleton.1 e
  rw [hord, List.flatten_singleton] at harr
  by_cases hne : arrived = []
  · have := (h3 hne hq).1
    rw [show Palette.run seg ws (Palette.start r ps) ops = p from rfl] at this
    rw [this]
    rw [harr] at hne
    rw [List.map_eq_nil_iff.1 hne]
    rfl
  · have hp := (h1 hne).1
    have hscore : ∀ e ∈ p.entries, e.score = 0 := by
      intro e he
      have he := hp.mem_iff.1 he
      rw [List.mem_mapIdx] at he
      obtain ⟨i, hi, rfl⟩ := he
      have hall : ∀ h ∈ arrived, h.score = none := by
        rw [harr]
        intro h hm
        obtain ⟨c, _, rfl⟩ := List.mem_map.1 hm
        rfl
      show (arrived[i].score).getD 0 = 0
      rw [hall _ (List.getElem_mem hi)]
      rfl
    have hent : p.entries = arrived.mapIdx (fun i h => Entry.ofHit h (i + 1)) := by
      apply List.Perm.eq_of_pairwise (le := fun a b : Entry => a.seq ≤ b.seq) ?_ ?_ ?_ hp
      · intro a b ha hb h1 h2
        have ha := hp.mem_iff.1 ha
        rw [List.mem_mapIdx] at ha hb
        obtain ⟨i, hi, rfl⟩ := ha
        obtain ⟨j, hj, rfl⟩ := hb
        have : i = j := by
          have h1 : i + 1 ≤ j + 1 := h1
          have h2 : j + 1 ≤ i + 1 := h2
          omega
        subst this; rfl
      · refine List.Pairwise.imp_of_mem ?_ hbest
        intro a b ha hb h
        rcases h with h | h
        · rw [hscore a ha, hscore b hb] at h; exact absurd h (lt_irrefl _)
        · exact h.2
      · rw [List.pairwise_iff_getElem]
        intro i j hi hj hij
        simp only [List.getElem_mapIdx]
        show i + 1 ≤ j + 1
        omega
    rw [hent, harr]
    apply List.ext_getElem (by simp)
    intro i hi hj
    simp [Entry.ofHit, Command.offered]

/-- C167: without a query a palette with the usual provider lists exactly the commands that may be discovered, sorted
by title, equal titles in their order. -/
theorem offered_sorted {seg : List Char → List (List Char)} {ws : Char → Bool} (t : Tables) (r : Bool)
    (ps : List Palette.Provider) (ops : List Palette.Palette.Op) (cs : List Command) :
    let p := Palette.run seg ws (Palette.start r ps) ops
    p.visible = true → p.selectedAction = none →
    (∀ u ∈ p.tasks ++ p.channel, u.gen = p.generation → u = .showBusy p.generation) →
    p.providers = [system t cs] → Palette.Palette.trim ws p.input.value = [] →
    ∃ l : List Command, l.Perm (cs.filter (·.discover)) ∧ l.Pairwise (fun a b => ¬ b.name < a.name) ∧
      (∀ n, l.filter (fun c => decide (c.name = n)) = (cs.filter (·.discover)).filter (fun c => decide (c.name = n))) ∧
      p.entries.map (fun e => (e.text, e.action, e.help)) = l.map (fun c => (c.name, some c.action, c.help)) := by
  intro p hv ha hno hpr hq
  exact ⟨sortTitles (cs.filter (·.discover)), sortTitles_perm _, sortTitles_sorted _, fun n => sortTitles_stable n _,
    offered_listed r ps ops (system t cs) _ (fun _ => rfl) hv ha hno hpr hq⟩

/-- C167: without a query a palette with a simple provider lists exactly the commands that may be discovered, in their
order. -/
theorem offered_as_given {seg : List Char → List (List Char)} {ws : Char → Bool} (t : Tables) (r : Bool)
    (ps : List Palette.Provider) (ops : List Palette.Palette.Op) (cs : List Command) :
    let p := Palette.run seg ws (Palette.start r ps) ops
    p.visible = true → p.selectedAction = none →
    (∀ u ∈ p.tasks ++ p.channel, u.gen = p.generation → u = .showBusy p.generation) →
    p.providers = [simple t cs] → Palette.Palette.trim ws p.input.value = [] →
    p.entries.map (fun e => (e.text, e.action, e.help)) =
      (cs.filter (·.discover)).map (fun c => (c.name, some c.action, c.help)) :=
  offered_listed r ps ops (simple t cs) _ (fun _ => rfl)

example : (Palette.run Palette.chars Palette.blank
    (Palette.start true [simple asciiTables [{ name := "Zoom".toList, action := [] },
      { name := "Hidden".toList, action := [], discover := false }, { name := "Ask".toList, action := [] }]])
    [.openPalette none, .finish 1, .receive false]).entries.map (·.text) = ["Zoom".toList, "Ask".toList] := by
  decide +kernel

example : (Palette.run Palette.chars Palette.blank
    (Palette.start true [system asciiTables ({ name := "Zoom".toList, action := [] } :: defaultCommands)])
    [.openPalette none, .finish 1, .receive false]).entries.map (·.text) =
    ["Keys".toList, "Maximize".toList, "Quit".toList, "Screenshot".toList, "Theme".toList, "Zoom".toList] := by
  decide +kernel

/-! ### C169: actions -/

/-- C169: an action that the application handles itself does nothing else; an action with the prefix `app.` does what
it does without; the others do what their names say, and nothing else. -/
theorem dispatch_spec (handled : List Char → Bool) (palette : Bool) (action : List Char) :
    (handled action = true → dispatch handled palette action = .custom) ∧
    (handled action = false → handled ("app.".toList ++ action) = false →
      dispatch handled palette action ≠ .nothing →
      dispatch handled palette ("app.".toList ++ action) = dispatch handled palette action ∨
        "app.".toList <+: action) ∧
    (handled action = false →
      (dispatch handled palette action = .quit ↔ action ∈ ["quit".toList, "app.quit".toList]) ∧
      (dispatch handled palette action = .bell ↔ action ∈ ["bell".toList, "app.bell".toList]) ∧
      (dispatch handled palette action = .submitPalette ↔
        action ∈ ["command_palette.submit".toList, "app.command_palette.submit".toList]) ∧
      (dispatch handled palette action = .openPalette ↔
        palette = true ∧ action ∈ ["command_palette".toList, "app.command_palette".toList])) := by
  refine ⟨fun h => by unfold dispatch; rw [if_pos h], ?_, ?_⟩
  · intro h1 h2 h3
    unfold dispatch at h3 ⊢
    rw [h1] at h3 ⊢
    rw [h2]
    simp only [Bool.false_eq_true, if_false] at h3 ⊢
    by_cases c1 : action = "app.quit".toList ∨ action = "quit".toList
    · rcases c1 with rfl | rfl
      · right; decide
      · left; cases palette <;> decide
    · rw [if_neg c1] at h3 ⊢
      by_cases c2 : action = "app.bell".toList ∨ action = "bell".toList
      · rcases c2 with rfl | rfl
        · right; decide
        · left; cases palette <;> decide
      · rw [if_neg c2] at h3 ⊢
        by_cases c3 : action = "app.command_palette.submit".toList ∨ action = "command_palette.submit".toList
        · rcases c3 with rfl | rfl
          · right; decide
          · left; cases palette <;> decide
        · rw [if_neg c3] at h3 ⊢
          by_cases c4 : action = "app.command_palette".toList ∨ action = "command_palette".toList
          · rcases c4 with rfl | rfl
            · right; decide
            · left; cases palette <;> decide
          · rw [if_neg c4] at h3
            exact absurd rfl h3
  · intro h
    unfold dispatch
    rw [h]
    simp only [Bool.false_eq_true, if_false, List.mem_cons, List.not_mem_nil, or_false]
    refine ⟨⟨fun h => ?_, ?_⟩, ⟨fun h => ?_, ?_⟩, ⟨fun h => ?_, ?_⟩, ⟨fun h => ?_, ?_⟩⟩
    · split at h
      · next c => exact c.symm
      · split at h
        · cases h
        · split at h
          · cases h
          · split at h
            · split at h <;> cases h
            · cases h
    · rintro (rfl | rfl) <;> cases palette <;> decide
    · split at h
      · cases h
      · split at h
        · next c => exact c.symm
        · split at h
          · cases h
          · split at h
            · split at h <;> cases h
            · cases h
    · rintro (rfl | rfl) <;> cases palette <;> decide
    · split at h
      · cases h
      · split at h
        · cases h
        · split at h
          · next c => exact c.symm
          · split at h
            · split at h <;> cases h
            · cases h
    · rintro (rfl | rfl) <;> cases palette <;> decide
    · split at h
      · cases h
      · split at h
        · cases h
        · split at h
          · cases h
          · split at h
            · next c =>
              split at h
              · next hp => exact ⟨hp, c.symm⟩
              · cases h
            · cases h
    · rintro ⟨rfl, rfl | rfl⟩ <;> decide

example : dispatch (fun _ => false) true "app.quit".toList = .quit ∧
    dispatch (fun a => a == "save".toList) true "save".toList = .custom := by decide

/-- C169: of the five commands that the palette of every application offers, only one does anything. -/
theorem offered_counterexample : (defaultCommands.filter fun c =>
      decide (dispatch (fun _ => false) true c.action ≠ .nothing)).map (·.name) = ["Quit".toList] ∧
    (systemDiscover defaultCommands).map (·.text) =
      ["Keys".toList, "Maximize".toList, "Quit".toList, "Screenshot".toList, "Theme".toList] := by decide

/-- C169: the command that says it quits does so, unless the application handles the action itself. -/
theorem quit_quits (handled : List Char → Bool) (palette : Bool) :
    (∃ c ∈ defaultCommands, c.name = "Quit".toList) ∧
    ∀ c ∈ defaultCommands, c.name = "Quit".toList → handled c.action = false →
      dispatch handled palette c.action = .quit := by
  refine ⟨by decide, fun c hc hn hh => ?_⟩
  have : c.action = "app.quit".toList := by
    have key : ∀ c ∈ defaultCommands, c.name = "Quit".toList → c.action = "app.quit".toList := by decide
    exact key c hc hn
  unfold dispatch
  rw [hh, if_neg (by simp), if_pos (.inl this)]

end Textual.Provider
