import Verif.Lemmas.PaletteInv

/-! The invariant of a search: what has arrived, what is shown, what is missing. -/

namespace Textual.Palette

open Textual.OptionList (OptionList)
open Textual.Input (Input)

variable {seg : List Char → List (List Char)} {ws : Char → Bool}

/-- The answer carried by a message of search `g`. -/
def Update.answer (g : Nat) : Update → Option (List Hit)
  | .results g' hs => if g' = g then some hs else none
  | _ => none

/-- The answers to the current search that have not been received. -/
def Palette.missing (p : Palette) : List (List Hit) := p.flight.filterMap (Update.answer p.generation)

/-- The message that nothing was found is on its way. -/
def Palette.Asks (p : Palette) : Prop := ∃ b, .showNoMatches p.generation b ∈ p.flight

/-- What the providers answer to the current query. -/
def Palette.hits (ws : Char → Bool) (p : Palette) : List (List Hit) :=
  p.providers.map (fun r => r p.generation (Palette.trim ws p.query))

/-- Hits as entries, numbered in order of arrival. -/
def numbered (hs : List Hit) : List Entry := numberedFrom 0 hs

theorem numbered_append (a b : List Hit) : numbered (a ++ b) = numbered a ++ numberedFrom a.length b := by
  unfold numbered numberedFrom
  rw [List.mapIdx_append]
  congr 1
  apply List.ext_getElem (by simp)
  intro i _ _
  simp only [List.getElem_mapIdx]
  congr 1; omega

theorem numbered_enabled {hs : List Hit} {e : Entry} (h : e ∈ numbered hs) : e.disabled = false ∧ e.action.isSome = true := by
  unfold numbered numberedFrom at h
  rw [List.mem_mapIdx] at h
  obtain ⟨i, _, rfl⟩ := h
  exact ⟨rfl, rfl⟩

theorem numbered_length (hs : List Hit) : (numbered hs).length = hs.length := by simp [numbered, numberedFrom]

theorem numbered_nil {hs : List Hit} : numbered hs = [] ↔ hs = [] := by
  rw [← List.length_eq_zero_iff, numbered_length, List.length_eq_zero_iff]

/-- The order in which entries are listed: best score first, then in order of arrival. -/
def BestFirst (es : List Entry) : Prop := es.Pairwise (fun a b => b.score < a.score ∨ a.score = b.score ∧ a.seq ≤ b.seq)

/-- A search in which the hits `R` have arrived. -/
structure Progress (p : Palette) (R : List Hit) : Prop where
  listed : p.listVisible = true
  phase : (p.clearCurrent = true ∧ p.pending = numbered R) ∨
    (p.clearCurrent = false ∧ p.entries ≠ [] ∧ (p.entries ++ p.pending).Perm (numbered R) ∧ BestFirst p.entries ∧
      p.list.selected = p.selected)

/-- A search that has found nothing. -/
structure Nothing (ws : Char → Bool) (p : Palette) : Prop where
  pending : p.pending = []
  shown : (p.entries = [] ∧ p.listVisible = false) ∨
    (p.entries = [Entry.noMatches] ∧ p.listVisible = true ∧ Palette.trim ws p.query ≠ [])
  asks : p.Asks → Palette.trim ws p.query ≠ []
  asked : p.entries = [] → Palette.trim ws p.query ≠ [] → p.Asks
  selected : p.list.selected = p.selected

/-- The counters of a search. -/
structure Counts (ws : Char → Bool) (p : Palette) (R : List Hit) : Prop where
  all : ∃ A : List (List Hit), R = A.flatten ∧ (A ++ p.missing).Perm (p.hits ws)
  count : p.completed + p.missing.length = p.expected
  exp : p.expected = p.providers.length
  seq : p.seq = R.length

/-- The state of the current search. -/
def Main (ws : Char → Bool) (p : Palette) : Prop :=
  ∃ R, Counts ws p R ∧
    ((Progress p R ∧ ¬ p.Asks ∧ (p.missing = [] → p.clearCurrent = false ∧ p.pending = [])) ∨
     (R = [] ∧ p.missing = [] ∧ Nothing ws p))

/-- The invariant: an open palette in which no command has been chosen. -/
def Inv (ws : Char → Bool) (p : Palette) : Prop := p.visible = true → p.selectedAction = none → Main ws p

/-! ### Starting a search -/

theorem answer_old {g : Nat} {us : List Update} (h : ∀ u ∈ us, u.gen < g) : us.filterMap (Update.answer g) = [] := by
  rw [List.filterMap_eq_nil_iff]
  intro u hu
  have := h u hu
  cases u with
  | results g' hs =>
    have : g' < g := this
    simp only [Update.answer]
    rw [if_neg (by omega)]
  | showBusy g' => rfl
  | showNoMatches g' b => rfl

theorem main_search {p : Palette} (h : ∀ u ∈ p.flight, u.gen ≤ p.generation) (hv : p.visible = true) (q : List Char)
    (cursor : Option Nat) : Main ws (p.startSearch seg ws q cursor) := by
  have hlt : ∀ u ∈ p.tasks, u.gen < p.generation + 1 := fun u hu => Nat.lt_succ_of_le (h u (List.mem_append_left _ hu))
  have hlc : ∀ u ∈ p.channel, u.gen < p.generation + 1 := fun u hu => Nat.lt_succ_of_le (h u (List.mem_append_right _ hu))
  have nom : ∀ b, ∀ us : List Update, (∀ u ∈ us, u.gen < p.generation + 1) → .showNoMatches (p.generation + 1) b ∉ us := by
    intro b us hus hm
    exact Nat.lt_irrefl _ (hus _ hm)
  by_cases hp : p.providers = []
  · have e := startSearch_none (seg := seg) (ws := ws) p q cursor hv hp
    dsimp only at e
    have r1 := refresh_rest (seg := seg)
      ({ p.searching seg q cursor with entries := [], listVisible := false, listShown := false } : Palette)
    have r2 := refresh_shown (seg := seg)
      ({ p.searching seg q cursor with entries := [], listVisible := false, listShown := false } : Palette)
    have hs : ({ p.searching seg q cursor with entries := [], listVisible := false, listShown := false } : Palette).sorted = [] :=
      sorted_nil rfl
    have hsel := (sel_range ({ p.searching seg q cursor with entries := [], listVisible := false, listShown := false } : Palette)).2 hs
    have hlv : ({ p.searching seg q cursor with entries := [], listVisible := false, listShown := false } : Palette).lv = false := by
      unfold Palette.lv; rw [hs]; rfl
    have hls : (Palette.mirror p.list [] 0).selected = 0 :=
      (mirror_ok p.list [] 0).1.empty (mirror_items p.list [] 0).1
    rw [hs, hsel, hlv] at r2
    rw [e]
    generalize ({ p.searching seg q cursor with entries := [], listVisible := false, listShown := false } : Palette).refreshResults seg = r at r1 r2
    have gch : r.channel = p.channel := r1.2.1
    have gge : r.generation = p.generation + 1 := r1.2.2.1
    have gq : r.query = q := r1.2.2.2.1
    have gpr : r.providers = [] := r1.2.2.2.2.2.2.1.trans hp
    have gex : r.expected = 0 := r1.2.2.2.2.2.2.2.1.trans (by show p.providers.length = 0; simp [hp])
    have gco : r.completed = 0 := r1.2.2.2.2.2.2.2.2.1
    have gse : r.seq = 0 := r1.2.2.2.2.2.2.2.2.2.1
    have gpe : r.pending = [] := r1.2.2.2.2.2.2.2.2.2.2.1
    have hmiss : (Palette.missing { r with
        tasks := p.tasks ++ if (Palette.trim ws q).isEmpty then [] else [.showNoMatches (p.generation + 1) true] }) = [] := by
      unfold Palette.missing Palette.flight
      dsimp only
      rw [gch, gge, List.filterMap_append, List.filterMap_append, answer_old hlt, answer_old hlc]
      split <;> rfl
    refine ⟨[], ⟨?_, ?_, ?_, ?_⟩, Or.inr ⟨rfl, hmiss, ⟨gpe, ?_, ?_, ?_, ?_⟩⟩⟩
    · refine ⟨[], rfl, ?_⟩
      rw [hmiss]
      unfold Palette.hits
      dsimp only
      rw [gpr]; exact List.Perm.refl _
    · rw [hmiss]; dsimp only; rw [gco, gex]; rfl
    · dsimp only; rw [gex, gpr]; rfl
    · dsimp only; rw [gse]; rfl
    · left; exact ⟨r2.1, r2.2.2.1⟩
    · rintro ⟨b, hb⟩
      unfold Palette.flight at hb
      dsimp only at hb ⊢
      rw [gge, gch] at hb
      rw [gq]
      simp only [List.mem_append] at hb
      rcases hb with (hb | hb) | hb
      · exact absurd hb (nom b _ hlt)
      · split at hb
        · simp at hb
        · rename_i hn; simpa using hn
      · exact absurd hb (nom b _ hlc)
    · intro _ hn
      dsimp only at hn
      rw [gq] at hn
      refine ⟨true, ?_⟩
      unfold Palette.flight
      dsimp only
      rw [gge, if_neg (by simpa using hn)]
      simp
    · dsimp only
      rw [r2.2.2.2, r2.2.1]
      exact hls
  · rw [startSearch_some p q cursor hv hp]
    have hmiss : (Palette.missing { p.searching seg q cursor with
        tasks := p.tasks ++ .showBusy (p.generation + 1) ::
          p.providers.map (fun r => .results (p.generation + 1) (r (p.generation + 1) (Palette.trim ws q))) }) =
        p.providers.map (fun r => r (p.generation + 1) (Palette.trim ws q)) := by
      unfold Palette.missing Palette.flight
      show ((p.tasks ++ _) ++ p.channel).filterMap (Update.answer (p.generation + 1)) = _
      rw [List.filterMap_append, List.filterMap_append, answer_old hlt, answer_old hlc, List.nil_append, List.append_nil,
        List.filterMap_cons]
      simp only [Update.answer, List.filterMap_map]
      induction p.providers with
      | nil => rfl
      | cons a l ih => simp [Function.comp_def, Update.answer]
    refine ⟨[], ⟨?_, ?_, rfl, rfl⟩, Or.inl ⟨⟨rfl, Or.inl ⟨rfl, rfl⟩⟩, ?_, ?_⟩⟩
    · refine ⟨[], rfl, ?_⟩
      rw [hmiss]
      exact List.Perm.refl _
    · rw [hmiss]
      show 0 + (p.providers.map _).length = p.providers.length
      simp
    · rintro ⟨b, hb⟩
      have hb : .showNoMatches (p.generation + 1) b ∈ (p.tasks ++ .showBusy (p.generation + 1) ::
          p.providers.map (fun r => .results (p.generation + 1) (r (p.generation + 1) (Palette.trim ws q)))) ++ p.channel := hb
      simp only [List.mem_append, List.mem_cons, List.mem_map] at hb
      rcases hb with (hb | hb | ⟨r, _, hb⟩) | hb
      · exact nom b _ hlt hb
      · cases hb
      · cases hb
      · exact nom b _ hlc hb
    · rw [hmiss]
      intro hm
      exact absurd (List.map_eq_nil_iff.1 hm) hp

/-! ### An answer arrives -/

theorem progress_answered {p : Palette} {R : List Hit} (h : Progress p R) (hq : p.seq = R.length) (hs : List Hit) :
    Progress (p.answered hs) (R ++ hs) := by
  refine ⟨h.listed, ?_⟩
  rw [numbered_append]
  rcases h.phase with ⟨h1, h2⟩ | ⟨h1, h2, h3, h4, h5⟩
  · left
    refine ⟨h1, ?_⟩
    show p.pending ++ numberedFrom p.seq hs = _
    rw [h2, hq]
  · right
    refine ⟨h1, h2, ?_, h4, h5⟩
    show (p.entries ++ (p.pending ++ numberedFrom p.seq hs)).Perm _
    rw [← List.append_assoc, hq]
    exact h3.append_right _

theorem progress_flush {p : Palette} {R : List Hit} (h : Progress p R) (ha : p.selectedAction = none) :
    Progress (p.flush seg) R ∧ (p.flush seg).pending = [] ∧ ((p.flush seg).clearCurrent = true → R = []) ∧
    (p.pending ≠ [] → (p.flush seg).clearCurrent = false) := by
  by_cases hp : p.pending = []
  · rw [flush_none p hp]
    refine ⟨h, hp, ?_, fun e => absurd hp e⟩
    intro hc
    rcases h.phase with ⟨_, h2⟩ | ⟨h1, _⟩
    · rw [hp] at h2; exact numbered_nil.1 h2.symm
    · rw [hc] at h1; cases h1
  · rw [flush_some p hp]
    have hperm : p.flushing.entries.Perm (numbered R) := by
      unfold Palette.flushing
      rcases h.phase with ⟨h1, h2⟩ | ⟨h1, _, h3, _⟩
      · dsimp only; rw [h1, if_pos rfl, h2]; exact List.Perm.refl _
      · dsimp only; rw [h1]; exact h3
    have hsp : p.flushing.sorted.Perm (numbered R) := (sorted_perm _).trans hperm
    have hen : ∀ e ∈ p.flushing.sorted, e.disabled = false := fun e he => (numbered_enabled (hsp.mem_iff.1 he)).1
    have hne : p.flushing.sorted ≠ [] := by
      intro e
      have := sorted_eq_nil.1 e
      unfold Palette.flushing at this
      exact hp (List.append_eq_nil_iff.1 this).2
    have hse := sel_enabled p.flushing hen hne
    have r1 := refresh_rest (seg := seg) p.flushing
    have r2 := refresh_shown (seg := seg) p.flushing
    have hcc : (p.flushing.refreshResults seg).clearCurrent = false := r1.2.2.2.2.2.2.2.2.2.2.2.1
    have hpe : (p.flushing.refreshResults seg).pending = [] := r1.2.2.2.2.2.2.2.2.2.2.1
    refine ⟨⟨?_, Or.inr ⟨hcc, ?_, ?_, ?_, ?_⟩⟩, hpe, ?_, fun _ => hcc⟩
    · rw [r2.2.2.1]
      unfold Palette.lv
      have : p.flushing.selectedAction = none := ha
      rw [this]; simp [hne]
    · rw [r2.1]; exact hne
    · rw [r2.1, hpe, List.append_nil]; exact hsp
    · rw [r2.1]; exact sorted_pairwise _
    · rw [r2.2.2.2, r2.2.1]
      exact mirror_selected _ _ _ ((sel_range _).1 hne) (Or.inl hse.2)
    · rw [hcc]; intro h; cases h

theorem progress_busy {p : Palette} {R : List Hit} (h : Progress p R) (b : Bool) : Progress { p with showBusy := b } R :=
  ⟨h.listed, h.phase⟩

theorem progress_finished {p : Palette} {R : List Hit} (h : Progress p R) (ha : p.selectedAction = none) :
    (Progress (p.finished seg) R ∧ R ≠ [] ∧ (p.finished seg).clearCurrent = false ∧ (p.finished seg).pending = []) ∨
    (R = [] ∧ (p.finished seg).entries = [] ∧ (p.finished seg).pending = [] ∧ (p.finished seg).listVisible = false ∧
      (p.finished seg).list.selected = (p.finished seg).selected) := by
  unfold Palette.finished
  by_cases hc : p.clearCurrent = true ∧ p.pending = []
  · rw [if_pos hc]
    right
    have r1 := refresh_rest (seg := seg) ({ p with showBusy := false, entries := [], clearCurrent := false } : Palette)
    have r2 := refresh_shown (seg := seg) ({ p with showBusy := false, entries := [], clearCurrent := false } : Palette)
    have hs : ({ p with showBusy := false, entries := [], clearCurrent := false } : Palette).sorted = [] := sorted_nil rfl
    have hsel := (sel_range ({ p with showBusy := false, entries := [], clearCurrent := false } : Palette)).2 hs
    have hlv : ({ p with showBusy := false, entries := [], clearCurrent := false } : Palette).lv = false := by
      unfold Palette.lv; rw [hs]; rfl
    rw [hs, hsel, hlv] at r2
    refine ⟨?_, r2.1, r1.2.2.2.2.2.2.2.2.2.2.1.trans hc.2, r2.2.2.1, ?_⟩
    · rcases h.phase with ⟨_, h2⟩ | ⟨h1, _⟩
      · rw [hc.2] at h2; exact numbered_nil.1 h2.symm
      · rw [hc.1] at h1; cases h1
    · rw [r2.2.2.2, r2.2.1]
      exact (mirror_ok p.list [] 0).1.empty (mirror_items p.list [] 0).1
  · rw [if_neg hc]
    left
    have hf := progress_flush (seg := seg) (progress_busy h false) ha
    have hcc : (({ p with showBusy := false } : Palette).flush seg).clearCurrent = false := by
      by_cases hp : p.pending = []
      · rw [flush_none ({ p with showBusy := false } : Palette) hp]
        cases he : p.clearCurrent
        · rfl
        · exact absurd ⟨he, hp⟩ hc
      · exact hf.2.2.2 hp
    refine ⟨hf.1, ?_, hcc, hf.2.1⟩
    intro hR
    rcases hf.1.phase with ⟨h1, _⟩ | ⟨_, h2, h3, _⟩
    · rw [hcc] at h1; cases h1
    · rw [hR] at h3
      have := h3.eq_nil
      exact h2 (List.append_eq_nil_iff.1 this).1

/-- Only the messages on their way matter to the counters, not their order. -/
theorem Counts.perm {p q : Palette} {R : List Hit} (h : Counts ws p R) (hm : q.missing.Perm p.missing)
    (e1 : q.hits ws = p.hits ws) (e2 : q.completed = p.completed) (e3 : q.expected = p.expected)
    (e4 : q.providers = p.providers) (e5 : q.seq = p.seq) : Counts ws q R := by
  refine ⟨?_, ?_, ?_, ?_⟩
  · obtain ⟨A, hA, hall⟩ := h.all
    exact ⟨A, hA, by rw [e1]; exact (List.Perm.append_left A hm).trans hall⟩
  · rw [e2, e3, hm.length_eq]; exact h.count
  · rw [e3, e4]; exact h.exp
  · rw [e5]; exact h.seq

theorem main_results {p : Palette} (slow : Bool) (hs : List Hit) (rest : List Update)
    (hc : p.channel = .results p.generation hs :: rest) (ha : p.selectedAction = none) (h : Main ws p) :
    Main ws (({ p with channel := rest } : Palette).applyUpdate seg ws slow (.results p.generation hs)) := by
  obtain ⟨R, hcnt, hph⟩ := h
  have hmiss : p.missing.Perm (hs :: Palette.missing { p with channel := rest }) := by
    unfold Palette.missing Palette.flight
    dsimp only
    rw [hc, List.filterMap_append, List.filterMap_append, List.filterMap_cons]
    simp only [Update.answer, if_true]
    exact List.perm_middle
  have hprog : Progress p R ∧ ¬ p.Asks := by
    rcases hph with ⟨h1, h2, _⟩ | ⟨_, h2, _⟩
    · exact ⟨h1, h2⟩
    · rw [h2] at hmiss; exact absurd hmiss.symm.eq_nil (by simp)
  have hp0 : Progress ({ p with channel := rest } : Palette) R := ⟨hprog.1.listed, hprog.1.phase⟩
  have hpa := progress_answered hp0 hcnt.seq hs
  have e := results_eq (seg := seg) (ws := ws) ({ p with channel := rest } : Palette) slow hs
  dsimp only at e
  rw [e]
  have rr := results_rest (seg := seg) ({ p with channel := rest } : Palette) slow hs
  dsimp only at rr
  have hpr : Progress (if slow = true then (({ p with channel := rest } : Palette).answered hs).flush seg
      else ({ p with channel := rest } : Palette).answered hs) (R ++ hs) := by
    cases slow
    · exact hpa
    · exact (progress_flush (seg := seg) hpa ha).1
  generalize (if slow = true then (({ p with channel := rest } : Palette).answered hs).flush seg
    else ({ p with channel := rest } : Palette).answered hs) = r at rr hpr
  obtain ⟨rt, rc, rg, rq, rv, ra, rp, re, rco, rs, -⟩ := rr
  -- the counters after the answer
  have cnt : ∀ s : Palette, s.missing = Palette.missing { p with channel := rest } → s.generation = p.generation →
      s.query = p.query → s.providers = p.providers → s.expected = p.expected → s.completed = p.completed + 1 →
      s.seq = p.seq + hs.length → Counts ws s (R ++ hs) := by
    intro s h1 h2 h3 h4 h5 h6 h7
    refine ⟨?_, ?_, ?_, ?_⟩
    · rw [h1]
      have : s.hits ws = p.hits ws := by unfold Palette.hits; rw [h2, h3, h4]
      obtain ⟨A, hA, hall⟩ := hcnt.all
      refine ⟨A ++ [hs], by rw [hA]; simp, ?_⟩
      rw [this, List.append_assoc]
      exact (List.Perm.append_left A hmiss.symm).trans hall
    · rw [h1, h5, h6]
      have := hcnt.count
      rw [hmiss.length_eq, List.length_cons] at this
      omega
    · rw [h5, h4]; exact hcnt.exp
    · rw [h7, hcnt.seq, List.length_append]
  have noask : ∀ s : Palette, s.generation = p.generation → s.tasks = p.tasks → s.channel = rest → ¬ s.Asks := by
    rintro s h1 h2 h3 ⟨b, hb⟩
    apply hprog.2
    refine ⟨b, ?_⟩
    unfold Palette.flight at hb ⊢
    rw [h1, h2, h3] at hb
    rw [hc]
    simp only [List.mem_append, List.mem_cons] at hb ⊢
    exact hb.imp id Or.inr
  have miss : ∀ s : Palette, s.generation = p.generation → s.tasks = p.tasks → s.channel = rest →
      s.missing = Palette.missing { p with channel := rest } := by
    intro s h1 h2 h3
    unfold Palette.missing Palette.flight
    rw [h1, h2, h3]
  have rmiss := miss r rg rt rc
  have rcnt := cnt r rmiss rg rq rp re rco rs
  by_cases hdone : r.completed ≥ r.expected
  · rw [if_pos hdone]
    have hempty : Palette.missing { p with channel := rest } = [] := by
      have := rcnt.count
      rw [rmiss] at this
      exact List.length_eq_zero_iff.1 (by omega)
    have fr := finished_rest (seg := seg) r
    have fp := progress_finished (seg := seg) hpr (ra.trans ha)
    generalize r.finished seg = s at fr fp
    obtain ⟨st, sc, sg, sq, sv, sa, sp, se, sco, ss, -⟩ := fr
    have smiss := miss s (sg.trans rg) (st.trans rt) (sc.trans rc)
    have scnt := cnt s smiss (sg.trans rg) (sq.trans rq) (sp.trans rp) (se.trans re) (sco.trans rco) (ss.trans rs)
    have sask := noask s (sg.trans rg) (st.trans rt) (sc.trans rc)
    rcases fp with ⟨f1, f2, f3, f4⟩ | ⟨f1, f2, f3, f4, f5⟩
    · have hne : s.entries ≠ [] := by
        rcases f1.phase with ⟨h1, _⟩ | ⟨_, h1, _⟩
        · rw [f3] at h1; cases h1
        · exact h1
      have hie : s.entries.isEmpty = false := by simpa using hne
      rw [hie]
      simp only [Bool.false_and, Bool.false_eq_true, if_false]
      exact ⟨R ++ hs, scnt, Or.inl ⟨f1, sask, fun _ => ⟨f3, f4⟩⟩⟩
    · have hie : s.entries.isEmpty = true := by rw [f2]; rfl
      rw [hie]
      by_cases ht : Palette.trim ws s.query = []
      · rw [ht]
        simp only [List.isEmpty_nil, Bool.not_true, Bool.and_false, Bool.false_eq_true, if_false]
        refine ⟨R ++ hs, scnt, Or.inr ⟨f1, smiss.trans hempty, ⟨f3, Or.inl ⟨f2, f4⟩, fun h => absurd h sask, ?_, f5⟩⟩⟩
        intro _ h; exact absurd ht h
      · have hie : (Palette.trim ws s.query).isEmpty = false := by simpa using ht
        rw [hie]
        simp only [Bool.not_false, Bool.and_self, if_true]
        have gm : Palette.missing { s with tasks := s.tasks ++ [.showNoMatches p.generation true] } = [] := by
          unfold Palette.missing Palette.flight
          dsimp only
          have h2 := smiss.trans hempty
          unfold Palette.missing Palette.flight at h2
          rw [List.filterMap_append] at h2
          have h3 := List.append_eq_nil_iff.1 h2
          rw [List.filterMap_append, List.filterMap_append, h3.1, h3.2]
          rfl
        refine ⟨R ++ hs, ?_, Or.inr ⟨f1, gm, ⟨f3, Or.inl ⟨f2, f4⟩, fun _ => ht, ?_, f5⟩⟩⟩
        · refine ⟨?_, ?_, scnt.exp, scnt.seq⟩
          · rw [gm]
            have := scnt.all
            rw [smiss.trans hempty] at this
            exact this
          · rw [gm]
            have := scnt.count
            rw [smiss.trans hempty] at this
            exact this
        · intro _ _
          refine ⟨true, ?_⟩
          unfold Palette.flight
          dsimp only
          rw [sg, rg]
          simp
  · rw [if_neg hdone]
    refine ⟨R ++ hs, rcnt, Or.inl ⟨hpr, noask r rg rt rc, ?_⟩⟩
    intro hm
    have := rcnt.count
    rw [hm] at this
    simp at this
    omega

/-! ### Everything else -/

theorem Main.congr {p q : Palette} (h : Main ws p) (hf : q.flight.Perm p.flight) (e1 : q.generation = p.generation)
    (e2 : q.query = p.query) (e3 : q.providers = p.providers) (e4 : q.expected = p.expected)
    (e5 : q.completed = p.completed) (e6 : q.seq = p.seq) (e7 : q.pending = p.pending)
    (e8 : q.clearCurrent = p.clearCurrent) (e9 : q.listVisible = p.listVisible) (e10 : q.entries = p.entries)
    (hs : p.list.selected = p.selected → q.list.selected = q.selected) : Main ws q := by
  obtain ⟨R, hc, hp⟩ := h
  have hm : q.missing.Perm p.missing := by unfold Palette.missing; rw [e1]; exact hf.filterMap _
  have ha : q.Asks ↔ p.Asks := by
    unfold Palette.Asks
    rw [e1]
    exact exists_congr (fun b => hf.mem_iff)
  have hcq : Counts ws q R := hc.perm hm (by unfold Palette.hits; rw [e1, e2, e3]) e5 e4 e3 e6
  have hnil : q.missing = [] ↔ p.missing = [] := by
    rw [← List.length_eq_zero_iff, hm.length_eq, List.length_eq_zero_iff]
  refine ⟨R, hcq, ?_⟩
  rcases hp with ⟨h1, h2, h3⟩ | ⟨h1, h2, h3⟩
  · left
    refine ⟨⟨e9.trans h1.listed, ?_⟩, fun h => h2 (ha.1 h), ?_⟩
    · rw [e8, e7, e10]
      exact h1.phase.imp id (fun ⟨a, b, c, d, e⟩ => ⟨a, b, c, d, hs e⟩)
    · rw [hnil, e8, e7]; exact h3
  · right
    refine ⟨h1, hnil.2 h2, ⟨e7.trans h3.pending, ?_, ?_, ?_, hs h3.selected⟩⟩
    · rw [e10, e9, e2]; exact h3.shown
    · rw [ha, e2]; exact h3.asks
    · rw [ha, e10, e2]; exact h3.asked

theorem inv_closed {p : Palette} (h : p.visible = false) : Inv ws p := fun hv => by rw [h] at hv; cases hv

theorem inv_chosen {p : Palette} (h : p.selectedAction ≠ none) : Inv ws p := fun _ ha => absurd ha h

theorem Inv.congr {p q : Palette} (h : Inv ws p) (hf : q.flight.Perm p.flight) (e0 : q.visible = p.visible)
    (e0' : q.selectedAction = p.selectedAction) (e1 : q.generation = p.generation)
    (e2 : q.query = p.query) (e3 : q.providers = p.providers) (e4 : q.expected = p.expected)
    (e5 : q.completed = p.completed) (e6 : q.seq = p.seq) (e7 : q.pending = p.pending)
    (e8 : q.clearCurrent = p.clearCurrent) (e9 : q.listVisible = p.listVisible) (e10 : q.entries = p.entries)
    (hs : p.list.selected = p.selected → q.list.selected = q.selected) : Inv ws q :=
  fun hv ha => (h (e0 ▸ hv) (e0' ▸ ha)).congr hf e1 e2 e3 e4 e5 e6 e7 e8 e9 e10 hs

theorem inv_activate {p : Palette} (h : Inv ws p) (hb : Base p) : Inv ws (p.activate seg) := by
  rw [activate_eq]
  split
  · exact h
  · rename_i e he
    split
    · exact h
    · rename_i hd
      split
      · split
        · exact inv_closed (close_visible _ _)
        · exact h
      · refine inv_chosen ?_
        rw [(refresh_rest _).2.2.2.2.2.1]
        have := hb.acts e (List.mem_append_left _ (List.mem_of_getElem? he)) (by simpa using hd)
        intro hc
        have hc' : e.action = none := hc
        rw [hc'] at this; cases this

theorem inv_submit {p : Palette} (h : Inv ws p) (hb : Base p) : Inv ws (p.submit seg) := by
  unfold Palette.submit
  split
  · exact inv_activate h hb
  · split
    · exact inv_closed (close_visible _ _)
    · exact h

theorem inv_move {p : Palette} (h : Inv ws p) (hb : Base p) {delta : Int} (hd : delta = 1 ∨ delta = -1) :
    Inv ws (p.moveSelection delta) := by
  unfold Palette.moveSelection
  split
  · exact h
  · rename_i hne
    have hne' : p.entries ≠ [] := by simpa using hne
    split
    · rename_i i hi
      have hr := nextEnabled_range p hd (Nat.le_of_lt (hb.range hne')) hi
      rw [Palette.updateList_eq, Palette.emitHighlight_eq]
      refine h.congr (List.Perm.refl _) rfl rfl rfl rfl rfl rfl rfl rfl rfl rfl rfl rfl ?_
      intro _
      exact mirror_selected _ _ _ hr.1 (Or.inl hr.2)
    · exact h

theorem Progress.not_blank {p : Palette} {R : List Hit} (h : Progress p R) : p.listVisible ≠ false := by
  rw [h.listed]; decide

theorem inv_arrow {p : Palette} (h : Inv ws p) (hb : Base p) {delta : Int} (hd : delta = 1 ∨ delta = -1)
    (hv : p.visible = true) : Inv ws (p.arrow delta) := by
  unfold Palette.arrow
  split
  · rename_i hc
    by_cases ha : p.selectedAction = none
    · exfalso
      have hl : p.listVisible = false := by cases hq : p.listVisible <;> simp_all
      have hne : p.entries ≠ [] := by intro e; simp [e] at hc
      obtain ⟨R, _, hp⟩ := h hv ha
      rcases hp with ⟨h1, _⟩ | ⟨_, _, h3⟩
      · exact h1.not_blank hl
      · rcases h3.shown with ⟨h4, _⟩ | ⟨_, h4, _⟩
        · exact hne h4
        · rw [hl] at h4; cases h4
    · refine inv_chosen ?_
      rw [Palette.sync_eq, Palette.updateList_eq, Palette.emitHighlight_eq]
      exact ha
  · exact inv_move h hb hd

theorem inv_receive {p : Palette} (h : Inv ws p) (hb : Base p) (slow : Bool) (u : Update) (rest : List Update)
    (hc : p.channel = u :: rest) : Inv ws (({ p with channel := rest } : Palette).applyUpdate seg ws slow u) := by
  have hflight : p.flight.Perm (u :: Palette.flight { p with channel := rest }) := by
    unfold Palette.flight
    rw [hc]
    exact List.perm_middle
  by_cases hg : u.gen = p.generation
  · cases u with
    | results g hs =>
      have hg' : g = p.generation := hg
      subst hg'
      intro hv ha
      have e := results_eq (seg := seg) (ws := ws) ({ p with channel := rest } : Palette) slow hs
      dsimp only at e
      have rr := results_rest (seg := seg) ({ p with channel := rest } : Palette) slow hs
      dsimp only at rr
      have hva : p.visible = true ∧ p.selectedAction = none := by
        rw [e] at hv ha
        generalize (if slow = true then (({ p with channel := rest } : Palette).answered hs).flush seg
          else ({ p with channel := rest } : Palette).answered hs) = r at rr hv ha
        obtain ⟨rt, rc, rg, rq, rv, ra, -⟩ := rr
        have fr := finished_rest (seg := seg) r
        generalize r.finished seg = s at fr hv ha
        obtain ⟨st, sc, sg, sq, sv, sa, -⟩ := fr
        rw [← rv, ← ra]
        split at hv
        · rw [if_pos (by assumption)] at ha
          rw [← sv, ← sa]
          split at hv
          · rw [if_pos (by assumption)] at ha
            exact ⟨hv, ha⟩
          · rw [if_neg (by assumption)] at ha
            exact ⟨hv, ha⟩
        · rw [if_neg (by assumption)] at ha
          exact ⟨hv, ha⟩
      exact main_results slow hs rest hc hva.2 (h hva.1 hva.2)
    | showBusy g =>
      have hg' : g = p.generation := hg
      subst hg'
      have key : Inv ws ({ p with channel := rest } : Palette) := by
        intro hv ha
        obtain ⟨R, hcnt, hp⟩ := h hv ha
        have hm : Palette.missing { p with channel := rest } = p.missing := by
          unfold Palette.missing Palette.flight
          dsimp only
          rw [hc, List.filterMap_append, List.filterMap_append, List.filterMap_cons]
          rfl
        have hask : Palette.Asks { p with channel := rest } ↔ p.Asks := by
          unfold Palette.Asks
          refine exists_congr (fun b => ?_)
          rw [hflight.mem_iff]
          simp
        have hcnt' : Counts ws ({ p with channel := rest } : Palette) R :=
          hcnt.perm (by rw [hm]) rfl rfl rfl rfl rfl
        refine ⟨R, hcnt', ?_⟩
        rw [hm, hask]
        rcases hp with ⟨h1, h2, h3⟩ | ⟨h1, h2, h3⟩
        · exact Or.inl ⟨⟨h1.listed, h1.phase⟩, h2, h3⟩
        · refine Or.inr ⟨h1, h2, ⟨h3.pending, h3.shown, ?_, ?_, h3.selected⟩⟩
          · rw [hask]; exact h3.asks
          · rw [hask]; exact h3.asked
      unfold Palette.applyUpdate
      dsimp only
      rw [if_neg (by simp)]
      split
      · exact key.congr (List.Perm.refl _) rfl rfl rfl rfl rfl rfl rfl rfl rfl rfl rfl rfl id
      · exact key
    | showNoMatches g b =>
      have hg' : g = p.generation := hg
      subst hg'
      have hbt : b = true := hb.flags p.generation b (by unfold Palette.flight; rw [hc]; simp)
      subst hbt
      have e : ({ p with channel := rest } : Palette).applyUpdate seg ws slow (.showNoMatches p.generation true) =
          { p with
            channel := rest, entries := [Entry.noMatches], selected := 0, listVisible := true
            list := Palette.mirror p.list [Entry.noMatches] 0
            listShown := p.visible && true, showBusy := p.showBusy && (p.visible && true)
            loadingShown := p.loadingShown && (p.visible && true) } := by
        unfold Palette.applyUpdate
        dsimp only
        rw [if_neg (by simp), if_pos rfl, Palette.sync_eq, Palette.updateList_eq]
      rw [e]
      intro hv ha
      obtain ⟨R, hcnt, hp⟩ := h hv ha
      have hasks : p.Asks := ⟨true, by unfold Palette.flight; rw [hc]; simp⟩
      rcases hp with ⟨_, h2, _⟩ | ⟨h1, h2, h3⟩
      · exact absurd hasks h2
      · have hm : Palette.missing { p with channel := rest } = p.missing := by
          unfold Palette.missing Palette.flight
          dsimp only
          rw [hc, List.filterMap_append, List.filterMap_append, List.filterMap_cons]
          rfl
        refine ⟨R, ⟨?_, ?_, hcnt.exp, hcnt.seq⟩, Or.inr ⟨h1, hm.trans h2, ⟨h3.pending, Or.inr ⟨rfl, rfl, h3.asks hasks⟩, ?_, ?_, ?_⟩⟩⟩
        · show ∃ A : List (List Hit), R = A.flatten ∧ (A ++ Palette.missing { p with channel := rest }).Perm (p.hits ws)
          rw [hm]; exact hcnt.all
        · show p.completed + (Palette.missing { p with channel := rest }).length = p.expected
          rw [hm]; exact hcnt.count
        · intro _; exact h3.asks hasks
        · intro hn; cases hn
        · exact mirror_selected _ _ _ Nat.zero_lt_one (Or.inr rfl)
  · rw [stale_update ({ p with channel := rest } : Palette) slow hg]
    intro hv ha
    obtain ⟨R, hcnt, hp⟩ := h hv ha
    have hm : Palette.missing { p with channel := rest } = p.missing := by
      unfold Palette.missing Palette.flight
      dsimp only
      rw [hc, List.filterMap_append, List.filterMap_append, List.filterMap_cons]
      cases u with
      | results g hs =>
        have : ¬ g = p.generation := hg
        simp only [Update.answer]
        rw [if_neg this]
      | showBusy g => rfl
      | showNoMatches g b => rfl
    have hask : Palette.Asks { p with channel := rest } ↔ p.Asks := by
      unfold Palette.Asks
      refine exists_congr (fun b => ?_)
      rw [hflight.mem_iff]
      constructor
      · intro hh; exact List.mem_cons_of_mem _ hh
      · intro hh
        rcases List.mem_cons.1 hh with hh | hh
        · exfalso; apply hg; rw [← hh]; rfl
        · exact hh
    have hcnt' : Counts ws ({ p with channel := rest } : Palette) R := hcnt.perm (by rw [hm]) rfl rfl rfl rfl rfl
    refine ⟨R, hcnt', ?_⟩
    rw [hm, hask]
    rcases hp with ⟨h1, h2, h3⟩ | ⟨h1, h2, h3⟩
    · exact Or.inl ⟨⟨h1.listed, h1.phase⟩, h2, h3⟩
    · refine Or.inr ⟨h1, h2, ⟨h3.pending, h3.shown, ?_, ?_, h3.selected⟩⟩
      · rw [hask]; exact h3.asks
      · rw [hask]; exact h3.asked

theorem inv_step {p : Palette} (h : Inv ws p) (hb : Base p) (op : Palette.Op) : Inv ws (p.step seg ws op) := by
  cases op with
  | openPalette focus =>
    simp only [Palette.step]
    by_cases hv : p.visible = true
    · rw [show p.openWith seg ws focus = p from if_pos hv]; exact h
    · rw [openWith_eq focus (by simpa using hv)]
      exact fun _ _ => main_search (p := p.opening focus) hb.gens rfl [] (some 0)
  | close => exact inv_closed (close_visible _ _)
  | setProviders ps =>
    simp only [Palette.step]
    by_cases hv : p.visible = true
    · rw [setProviders_open ps hv]
      exact fun _ _ => main_search (p := p.supplied ps) hb.gens hv _ _
    · rw [setProviders_closed ps (by simpa using hv)]
      exact inv_closed (show p.visible = false by simpa using hv)
  | submit => exact inv_submit h hb
  | esc => simp only [Palette.step]; split; exacts [inv_closed (close_visible _ _), h]
  | enter => simp only [Palette.step]; split; exacts [inv_submit h hb, h]
  | up => simp only [Palette.step]; split; exacts [inv_arrow h hb (Or.inr rfl) (by assumption), h]
  | down => simp only [Palette.step]; split; exacts [inv_arrow h hb (Or.inl rfl) (by assumption), h]
  | key k =>
    simp only [Palette.step]
    split
    · rename_i hv
      unfold Palette.typeKey
      dsimp only
      split
      · exact fun _ _ => main_search (p := p.typed (p.input.onKey seg k)) hb.gens hv _ _
      · exact h.congr (List.Perm.refl _) rfl rfl rfl rfl rfl rfl rfl rfl rfl rfl rfl rfl id
    · exact h
  | clickRow y =>
    simp only [Palette.step]
    rcases clickRow_cases (seg := seg) hb y with ⟨e, _⟩ | ⟨i, q, _, _, _, _, hq, ⟨l, ev, hl, rfl, _⟩, e⟩
    · rw [e]; exact h
    · rw [e]
      refine inv_activate ?_ hq
      exact h.congr (List.Perm.refl _) rfl rfl rfl rfl rfl rfl rfl rfl rfl rfl rfl rfl (fun _ => hl)
  | clickOutside => simp only [Palette.step]; split; exacts [inv_closed (close_visible _ _), h]
  | takeAction => exact h.congr (List.Perm.refl _) rfl rfl rfl rfl rfl rfl rfl rfl rfl rfl rfl rfl id
  | takeEvents => exact h.congr (List.Perm.refl _) rfl rfl rfl rfl rfl rfl rfl rfl rfl rfl rfl rfl id
  | takeRestore =>
    simp only [Palette.step]
    split
    · exact h
    · exact h.congr (List.Perm.refl _) rfl rfl rfl rfl rfl rfl rfl rfl rfl rfl rfl rfl id
  | setFocus on =>
    simp only [Palette.step]
    split
    · exact h.congr (List.Perm.refl _) rfl rfl rfl rfl rfl rfl rfl rfl rfl rfl rfl rfl id
    · exact h
  | finish n =>
    simp only [Palette.step]
    split
    · rename_i u hu
      refine h.congr ?_ rfl rfl rfl rfl rfl rfl rfl rfl rfl rfl rfl rfl id
      unfold Palette.flight
      dsimp only
      obtain ⟨hn, hu'⟩ := List.getElem?_eq_some_iff.1 hu
      have hp : (p.tasks.eraseIdx n ++ (p.channel ++ [u])).Perm (u :: (p.tasks.eraseIdx n ++ p.channel)) := by
        rw [← List.append_assoc]
        exact List.perm_append_singleton _ _
      refine hp.trans ?_
      rw [← List.cons_append]
      refine List.Perm.append_right _ ?_
      rw [List.eraseIdx_eq_take_drop_succ, ← hu']
      have hd : p.tasks = p.tasks.take n ++ p.tasks[n] :: p.tasks.drop (n + 1) := by
        rw [List.getElem_cons_drop, List.take_append_drop]
      have := (List.perm_middle (a := p.tasks[n]) (l₁ := p.tasks.take n) (l₂ := p.tasks.drop (n + 1))).symm
      rw [← hd] at this
      exact this
    · exact h
  | receive slow =>
    simp only [Palette.step]
    split
    · rename_i u rest hc
      exact inv_receive h hb slow u rest hc
    · exact h

theorem inv_run {p : Palette} (h : Inv ws p) (hb : Base p) (ops : List Palette.Op) :
    Inv ws (run seg ws p ops) ∧ Base (run seg ws p ops) := by
  induction ops generalizing p with
  | nil => exact ⟨h, hb⟩
  | cons op ops ih => exact ih (inv_step h hb op) (base_step hb op)

end Textual.Palette
