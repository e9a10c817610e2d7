import Verif.Spec.Markup
import Mathlib.Tactic.Common

namespace Textual.Markup

theorem Res.bind_eq_ok {α β : Type} {x : Res α} {f : α → Res β} {b : β} :
    x.bind f = .ok b ↔ ∃ a, x = .ok a ∧ f a = .ok b := by
  cases x <;> simp [Res.bind]

theorem Res.bind_ne_panic {α β : Type} {x : Res α} {f : α → Res β} (hx : x ≠ .panic)
    (hf : ∀ a, x = .ok a → f a ≠ .panic) : x.bind f ≠ .panic := by
  cases x with
  | ok a => exact hf a rfl
  | err => simp [Res.bind]
  | panic => exact absurd rfl hx

/-! ### Byte lengths -/

@[simp] theorem blen_nil : blen [] = 0 := rfl

@[simp] theorem blen_cons (c : Char) (s : List Char) : blen (c :: s) = c.utf8Size + blen s := by
  simp [blen]

@[simp] theorem blen_append (a b : List Char) : blen (a ++ b) = blen a + blen b := by
  simp [blen]

theorem utf8Size_pos (c : Char) : 0 < c.utf8Size := Char.utf8Size_pos c

theorem blen_eq_zero {s : List Char} : blen s = 0 ↔ s = [] := by
  cases s with
  | nil => simp
  | cons c s => have := utf8Size_pos c; simp; omega

theorem Boundary.mono {a b : List Char} {n : Nat} (h : Boundary a n) : Boundary (a ++ b) n := by
  obtain ⟨pre, post, rfl, hn⟩ := h
  exact ⟨pre, post ++ b, by simp, hn⟩

theorem Boundary.full (a : List Char) : Boundary a (blen a) := ⟨a, [], by simp, rfl⟩

/-! ### Lexer -/

theorem lex_nil (ws : Char → Bool) : lex ws [] = .ok [] := by unfold lex; rfl

theorem lex_tag (ws : Char → Bool) {cs a r : List Char} (h : tagBody 0 cs = some (a, r)) :
    lex ws ('[' :: cs) =
      (tagToken ws a).bind fun t => (lex ws r).bind fun ts => .ok (t :: ts) := by
  rw [lex.eq_def]
  dsimp only
  rw [if_pos rfl]
  split
  · rename_i h'; rw [h] at h'; cases h'
  · rename_i a' r' h'
    rw [h] at h'; cases h'; rfl

theorem lex_esc (ws : Char → Bool) {c : Char} (h : c ∈ ['[', ']', '\\']) (r : List Char) :
    lex ws ('\\' :: c :: r) = (lex ws r).bind fun ts => .ok (.esc c :: ts) := by
  have h' : c = '[' ∨ c = ']' ∨ c = '\\' := by simpa using h
  rw [lex.eq_def]
  dsimp only
  rw [if_neg (by decide), if_pos rfl, if_pos h']

theorem lex_text (ws : Char → Bool) {c : Char} (h1 : c ≠ '[') (h2 : c ≠ '\\') (cs : List Char) :
    lex ws (c :: cs) = (lex ws (cs.dropWhile fun x => !special x)).bind fun ts =>
        .ok (.text (c :: cs.takeWhile fun x => !special x) :: ts) := by
  rw [lex.eq_def]
  dsimp only
  rw [if_neg h1, if_neg h2]

/-! ### The parser and the reader's view -/

def Entry.frame (e : Entry) : Frame := ⟨e.style, e.info, e.tag⟩

/-- Frames that leave a trace. -/
def Frame.styled (f : Frame) : Bool := !f.style.isEmpty || !f.info.isEmpty

def Entry.pair (e : Entry) : Style × Meta := (e.style, e.info)
def Span.pair (s : Span) : Style × Meta := (s.style, s.info)
def Frame.pair (f : Frame) : Style × Meta := (f.style, f.info)

/-- Tags seen at offset `o`: closed spans around it, then open entries started at or before it. -/
def seen (p : Parser) (o : Nat) : List (Style × Meta) :=
  (p.spans.filter (·.contains o)).map Span.pair ++
    ((p.stack.filter fun e => decide (e.start ≤ o)).filter fun e => e.frame.styled).map Entry.pair

/-- Parser state `p` after the characters `ann` have been written. -/
structure Tracks (p : Parser) (ann : List (Char × List Frame)) : Prop where
  out : p.output = ann.map (·.1)
  starts : ∀ e ∈ p.stack, e.start ≤ blen p.output
  stops : ∀ s ∈ p.spans, s.stop ≤ blen p.output
  tags : ∀ pre c st post, ann = pre ++ (c, st) :: post → ∀ o, blen (pre.map (·.1)) ≤ o →
    o < blen (pre.map (·.1)) + c.utf8Size → seen p o = (st.filter (·.styled)).map Frame.pair

theorem createSpan_output (p : Parser) (e : Entry) : (p.createSpan e).output = p.output := by
  unfold Parser.createSpan; split <;> rfl

theorem createSpan_stack (p : Parser) (e : Entry) : (p.createSpan e).stack = p.stack := by
  unfold Parser.createSpan; split <;> rfl

theorem Tracks.offset_lt {p : Parser} {ann pre post : List (Char × List Frame)} {c : Char}
    {st : List Frame} (h : Tracks p ann) (he : ann = pre ++ (c, st) :: post) {o : Nat}
    (ho : o < blen (pre.map (·.1)) + c.utf8Size) : o < blen p.output := by
  rw [h.out, he]
  simp
  omega

theorem Tracks.close {p : Parser} {ann : List (Char × List Frame)} {e : Entry} {rest : List Entry}
    (h : Tracks p ann) (hs : p.stack = e :: rest) :
    Tracks ({ p with stack := rest }.createSpan e) ann := by
  refine ⟨by rw [createSpan_output]; exact h.out, ?_, ?_, ?_⟩
  · intro x hx
    rw [createSpan_stack] at hx
    rw [createSpan_output]
    exact h.starts x (by rw [hs]; exact List.mem_cons_of_mem _ hx)
  · intro s hs'
    rw [createSpan_output]
    unfold Parser.createSpan at hs'
    split at hs'
    · rcases List.mem_append.1 hs' with h' | h'
      · exact h.stops s h'
      · simp only [List.mem_singleton] at h'
        subst h'
        exact Nat.le_refl _
    · exact h.stops s hs'
  · intro pre c st post he o h1 h2
    have ho := h.offset_lt he h2
    rw [← h.tags pre c st post he o h1 h2]
    unfold seen
    rw [hs]
    unfold Parser.createSpan
    by_cases hst : e.start ≤ o
    · have hlt : e.start < blen p.output := by omega
      by_cases hsty : e.frame.styled = true
      · have hc : (e.start < blen p.output ∧ (!e.style.isEmpty || !e.info.isEmpty) = true) :=
          ⟨hlt, hsty⟩
        rw [if_pos hc]
        simp [Span.contains, hst, hsty, ho, Span.pair, Entry.pair]
      · have hc : ¬ (e.start < blen p.output ∧ (!e.style.isEmpty || !e.info.isEmpty) = true) :=
          fun hh => hsty hh.2
        rw [if_neg hc]
        simp [hst, hsty]
    · split
      · simp [Span.contains, hst]
      · simp [hst]

theorem Tracks.closeMany {ann : List (Char × List Frame)} {rest : List Entry} :
    ∀ (es : List Entry) (p : Parser), Tracks p ann → p.stack = es ++ rest →
      Tracks (es.foldl (fun q e => q.createSpan e) { p with stack := rest }) ann
  | [], p, h, hs => by
    have : { p with stack := rest } = p := by cases p; simp at hs; simp [hs]
    simpa [this] using h
  | e :: es, p, h, hs => by
    have hq := h.close (rest := es ++ rest) hs
    have := Tracks.closeMany (rest := rest) es _ hq (by rw [createSpan_stack])
    rw [List.foldl_cons]
    have heq : ({ ({ p with stack := es ++ rest } : Parser).createSpan e with stack := rest } : Parser)
        = ({ p with stack := rest } : Parser).createSpan e := by
      unfold Parser.createSpan
      split <;> rfl
    rw [heq] at this
    exact this

theorem Tracks.push {p : Parser} {ann : List (Char × List Frame)} (h : Tracks p ann) (s : Style)
    (m : Meta) (t : List Char) : Tracks (p.push s m t) ann := by
  refine ⟨h.out, ?_, h.stops, ?_⟩
  · intro e he
    rcases List.mem_cons.1 he with rfl | he
    · exact Nat.le_refl _
    · exact h.starts e he
  · intro pre c st post he o h1 h2
    have ho := h.offset_lt he h2
    rw [← h.tags pre c st post he o h1 h2]
    unfold seen Parser.push
    simp [Nat.not_le.2 ho]

theorem seen_now {p : Parser} {ann : List (Char × List Frame)} (h : Tracks p ann) {o : Nat}
    (ho : blen p.output ≤ o) : seen p o = ((p.stack.map Entry.frame).filter (·.styled)).map Frame.pair := by
  unfold seen
  have h1 : p.spans.filter (·.contains o) = [] := by
    apply List.filter_eq_nil_iff.2
    intro s hs
    have := h.stops s hs
    simp [Span.contains]
    omega
  have h2 : (p.stack.filter fun e => decide (e.start ≤ o)) = p.stack := by
    apply List.filter_eq_self.2
    intro e he
    have := h.starts e he
    simp; omega
  rw [h1, h2, List.filter_map, List.map_map]
  simp only [List.map_nil, List.nil_append]
  rfl

theorem Tracks.write {p : Parser} {ann : List (Char × List Frame)} (h : Tracks p ann) (c : Char) :
    Tracks { p with output := p.output ++ [c] } (ann ++ [(c, p.stack.map Entry.frame)]) := by
  refine ⟨by simp [h.out], ?_, ?_, ?_⟩
  · intro e he
    have := h.starts e he
    simp; omega
  · intro s hs
    have := h.stops s hs
    simp; omega
  · intro pre x st post he o h1 h2
    show seen p o = _
    rcases List.eq_nil_or_concat post with rfl | ⟨post', y, rfl⟩
    · have := List.append_inj' he (by simp)
      obtain ⟨rfl, h3⟩ := this
      simp only [List.cons.injEq, Prod.mk.injEq, and_true] at h3
      obtain ⟨rfl, rfl⟩ := h3
      exact seen_now h (by rw [h.out]; exact h1)
    · have : ann ++ [(c, p.stack.map Entry.frame)] = (pre ++ (x, st) :: post') ++ [y] := by
        rw [he]; simp
      obtain ⟨h3, _⟩ := List.append_inj' this (by simp)
      exact h.tags pre x st post' h3 o h1 h2

theorem Tracks.writeAll : ∀ (s : List Char) {p : Parser} {ann : List (Char × List Frame)},
    Tracks p ann →
    Tracks { p with output := p.output ++ s } (ann ++ s.map fun c => (c, p.stack.map Entry.frame))
  | [], p, ann, h => by simpa using h
  | c :: s, p, ann, h => by
    have := Tracks.writeAll s (h.write c)
    simpa using this

theorem splitMatching_append (lower : List Char → List Char) (name : List Char) :
    ∀ es : List Entry, (splitMatching lower name es).1 ++ (splitMatching lower name es).2 = es
  | [] => rfl
  | e :: es => by
    unfold splitMatching
    split
    · rfl
    · simp [splitMatching_append lower name es]

theorem splitMatching_frames (lower : List Char → List Char) (name : List Char) :
    ∀ es : List Entry, (splitMatching lower name es).2.map Entry.frame
      = closeNamed lower name (es.map Entry.frame)
  | [] => rfl
  | e :: es => by
    have ih := splitMatching_frames lower name es
    unfold splitMatching closeNamed
    by_cases h : tagMatches lower e.tag name = true
    · rw [if_pos h]
      simp [Entry.frame, h]
    · rw [if_neg h, ih]
      simp [Entry.frame, h, closeNamed]

theorem foldl_createSpan_stack : ∀ (es : List Entry) (p : Parser),
    (es.foldl (fun q e => q.createSpan e) p).stack = p.stack
  | [], _ => rfl
  | e :: es, p => by rw [List.foldl_cons, foldl_createSpan_stack es, createSpan_stack]

theorem foldl_createSpan_output : ∀ (es : List Entry) (p : Parser),
    (es.foldl (fun q e => q.createSpan e) p).output = p.output
  | [], _ => rfl
  | e :: es, p => by rw [List.foldl_cons, foldl_createSpan_output es, createSpan_output]

theorem pop_eq (p : Parser) :
    p.pop = (p.stack.take 1).foldl (fun q e => q.createSpan e) { p with stack := p.stack.tail } := by
  unfold Parser.pop
  split
  · rename_i h; rw [h]; cases p; simp at h; simp [h]
  · rename_i e rest h; rw [h]; rfl

theorem Tracks.pop {p : Parser} {ann : List (Char × List Frame)} (h : Tracks p ann) :
    Tracks p.pop ann := by
  rw [pop_eq]
  apply Tracks.closeMany _ _ h
  cases p.stack <;> rfl

theorem pop_frames (p : Parser) : p.pop.stack.map Entry.frame = (p.stack.map Entry.frame).tail := by
  rw [pop_eq, foldl_createSpan_stack]
  simp

theorem Tracks.popMatching {p : Parser} {ann : List (Char × List Frame)} (h : Tracks p ann)
    (lower : List Char → List Char) (name : List Char) : Tracks (p.popMatching lower name) ann := by
  unfold Parser.popMatching
  exact Tracks.closeMany _ _ h (splitMatching_append lower name p.stack).symm

theorem popMatching_frames (lower : List Char → List Char) (name : List Char) (p : Parser) :
    (p.popMatching lower name).stack.map Entry.frame
      = closeNamed lower name (p.stack.map Entry.frame) := by
  unfold Parser.popMatching
  rw [foldl_createSpan_stack]
  exact splitMatching_frames lower name p.stack

/-- The parser run computes the reader's view. -/
theorem Tracks.run (ext : Ext) : ∀ (ts : List Token) {p q : Parser} {ann : List (Char × List Frame)},
    Tracks p ann → p.run ext ts = .ok q →
    ∃ more, annotate ext (p.stack.map Entry.frame) ts = .ok more ∧ Tracks q (ann ++ more)
  | [], p, q, ann, h, hr => by
    simp only [Parser.run, Res.ok.injEq] at hr
    subst hr
    exact ⟨[], rfl, by simpa using h⟩
  | t :: ts, p, q, ann, h, hr => by
    simp only [Parser.run, Res.bind_eq_ok] at hr
    obtain ⟨p', hstep, hrun⟩ := hr
    cases t with
    | text s =>
      simp only [Parser.step, Res.ok.injEq] at hstep
      subst hstep
      obtain ⟨more, h1, h2⟩ := Tracks.run ext ts (h.writeAll s) hrun
      refine ⟨(s.map fun c => (c, p.stack.map Entry.frame)) ++ more, ?_, ?_⟩
      · simp only [annotate]
        rw [h1]; rfl
      · rw [← List.append_assoc]; exact h2
    | esc c =>
      simp only [Parser.step, Res.ok.injEq] at hstep
      subst hstep
      obtain ⟨more, h1, h2⟩ := Tracks.run ext ts (h.write c) hrun
      refine ⟨(c, p.stack.map Entry.frame) :: more, ?_, ?_⟩
      · simp only [annotate]
        rw [h1]; rfl
      · rw [List.append_assoc] at h2; exact h2
    | close spec =>
      cases spec with
      | none =>
        simp only [Parser.step, Res.ok.injEq] at hstep
        subst hstep
        obtain ⟨more, h1, h2⟩ := Tracks.run ext ts h.pop hrun
        exact ⟨more, by rw [pop_frames] at h1; exact h1, h2⟩
      | some name =>
        simp only [Parser.step, Res.ok.injEq] at hstep
        subst hstep
        obtain ⟨more, h1, h2⟩ := Tracks.run ext ts (h.popMatching ext.lower name) hrun
        exact ⟨more, by rw [popMatching_frames] at h1; exact h1, h2⟩
    | «open» content =>
      simp only [Parser.step, Res.bind_eq_ok] at hstep
      obtain ⟨t, htag, hstep⟩ := hstep
      cases t with
      | style s =>
        simp only [Res.ok.injEq] at hstep
        subst hstep
        obtain ⟨more, h1, h2⟩ := Tracks.run ext ts (h.push s [] content) hrun
        exact ⟨more, by simp only [annotate, htag, Res.bind]; exact h1, h2⟩
      | info k v =>
        simp only [Res.ok.injEq] at hstep
        subst hstep
        obtain ⟨more, h1, h2⟩ := Tracks.run ext ts (h.push {} [(k, v)] content) hrun
        exact ⟨more, by simp only [annotate, htag, Res.bind]; exact h1, h2⟩
      | closeAll =>
        simp only [Res.ok.injEq] at hstep
        subst hstep
        obtain ⟨more, h1, h2⟩ := Tracks.run ext ts h.pop hrun
        refine ⟨more, ?_, h2⟩
        simp only [annotate, htag, Res.bind]
        rw [pop_frames] at h1; exact h1
      | closeStyle name =>
        simp only [Res.ok.injEq] at hstep
        subst hstep
        obtain ⟨more, h1, h2⟩ := Tracks.run ext ts (h.popMatching ext.lower name) hrun
        refine ⟨more, ?_, h2⟩
        simp only [annotate, htag, Res.bind]
        rw [popMatching_frames] at h1; exact h1

theorem Tracks.init : Tracks {} [] :=
  ⟨rfl, by simp, by simp, by simp⟩

/-- Everything the parser records, in the reader's terms. -/
theorem parse_tracks {ext : Ext} {src : List Char} {m : Parsed} (h : parse ext src = .ok m) :
    ∃ toks ann, lex ext.ws src = .ok toks ∧ annotate ext [] toks = .ok ann ∧
      m.text = ann.map (·.1) ∧
      ∀ pre c st post, ann = pre ++ (c, st) :: post → ∀ o, blen (pre.map (·.1)) ≤ o →
        o < blen (pre.map (·.1)) + c.utf8Size →
        (m.spans.filter (·.contains o)).map Span.pair = (st.filter (·.styled)).map Frame.pair := by
  simp only [parse, Res.bind_eq_ok, Res.ok.injEq] at h
  obtain ⟨toks, hl, p, hr, rfl⟩ := h
  obtain ⟨ann, ha, ht⟩ := Tracks.run ext toks Tracks.init hr
  have hc := Tracks.closeMany p.stack p ht (rest := []) (by simp)
  refine ⟨toks, ann, hl, ha, hc.out, ?_⟩
  intro pre c st post he o h1 h2
  have := hc.tags pre c st post (by simpa using he) o h1 h2
  rw [← this]
  unfold seen
  rw [foldl_createSpan_stack]
  simp [Parser.closeAll]

theorem apply_empty (a s : Style) (h : s.isEmpty = true) : a.apply s = a := by
  obtain ⟨fg, bg, ⟨b1, b2, b3, b4, b5, b6, b7⟩⟩ := s
  simp [Style.isEmpty, TextStyle.isEmpty] at h
  obtain ⟨⟨rfl, rfl⟩, ⟨⟨⟨⟨⟨rfl, rfl⟩, rfl⟩, rfl⟩, rfl⟩, rfl⟩, rfl⟩ := h
  cases a
  simp [Style.apply, TextStyle.apply]

theorem foldl_filter_contains {α : Type} (f : α → Span → α) (o : Nat) : ∀ (l : List Span) (a : α),
    l.foldl (fun acc s => if s.contains o then f acc s else acc) a
      = (l.filter (·.contains o)).foldl f a
  | [], _ => rfl
  | s :: l, a => by
    rw [List.foldl_cons, foldl_filter_contains f o l]
    by_cases h : s.contains o = true <;> simp [h]

theorem foldl_styled : ∀ (st : List Frame) (a : Style),
    ((st.filter (·.styled)).map Frame.pair).foldl (fun acc p => acc.apply p.1) a
      = st.foldl (fun acc f => acc.apply f.style) a
  | [], _ => rfl
  | f :: st, a => by
    by_cases h : f.styled = true
    · simp only [List.filter_cons, h, if_pos, List.map_cons, List.foldl_cons]
      exact foldl_styled st _
    · simp only [List.filter_cons, h, List.foldl_cons]
      have : f.style.isEmpty = true := by
        simp [Frame.styled] at h
        exact h.1
      rw [apply_empty a f.style this]
      exact foldl_styled st a

end Textual.Markup
