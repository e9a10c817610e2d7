import Verif.Lemmas.Markup

/-! Lexing one character at a time gives the same parse as lexing runs of text. -/

namespace Textual.Markup

/-- `lex` with one token per text character. -/
def lexC (ws : Char → Bool) : List Char → Res (List Token)
  | [] => .ok []
  | c :: cs =>
    if c = '[' then
      match h : tagBody 0 cs with
      | none => .err
      | some (content, rest) =>
        (tagToken ws content).bind fun t => (lexC ws rest).bind fun ts => .ok (t :: ts)
    else if c = '\\' then
      match cs with
      | [] => .err
      | e :: rest =>
        if e = '[' ∨ e = ']' ∨ e = '\\' then (lexC ws rest).bind fun ts => .ok (.esc e :: ts)
        else .err
    else (lexC ws cs).bind fun ts => .ok (.text [c] :: ts)
termination_by cs => cs.length
decreasing_by
  · have := tagBody_length _ _ _ _ h
    simp; omega
  · simp; omega
  · simp

theorem lexC_nil (ws : Char → Bool) : lexC ws [] = .ok [] := by unfold lexC; rfl

theorem lexC_tag (ws : Char → Bool) {cs a r : List Char} (h : tagBody 0 cs = some (a, r)) :
    lexC ws ('[' :: cs) =
      (tagToken ws a).bind fun t => (lexC ws r).bind fun ts => .ok (t :: ts) := by
  rw [lexC.eq_def]
  dsimp only
  rw [if_pos rfl]
  split
  · rename_i h'; rw [h] at h'; cases h'
  · rename_i a' r' h'
    rw [h] at h'; cases h'; rfl

theorem lexC_esc (ws : Char → Bool) {c : Char} (h : c ∈ ['[', ']', '\\']) (r : List Char) :
    lexC ws ('\\' :: c :: r) = (lexC ws r).bind fun ts => .ok (.esc c :: ts) := by
  have h' : c = '[' ∨ c = ']' ∨ c = '\\' := by simpa using h
  rw [lexC.eq_def]
  dsimp only
  rw [if_neg (by decide), if_pos rfl, if_pos h']

theorem lexC_text (ws : Char → Bool) {c : Char} (h1 : c ≠ '[') (h2 : c ≠ '\\') (cs : List Char) :
    lexC ws (c :: cs) = (lexC ws cs).bind fun ts => .ok (.text [c] :: ts) := by
  rw [lexC.eq_def]
  dsimp only
  rw [if_neg h1, if_neg h2]

def explode : Token → List Token
  | .text s => s.map fun c => .text [c]
  | t => [t]

/-- Result of `lex`, exploded. -/
def Res.mapExplode : Res (List Token) → Res (List Token)
  | .ok ts => .ok (ts.flatMap explode)
  | .err => .err
  | .panic => .panic

theorem lexC_run (ws : Char → Bool) (rest : List Char) : ∀ run : List Char,
    (∀ c ∈ run, special c = false) →
    lexC ws (run ++ rest) = (lexC ws rest).bind fun ts => .ok (run.map (fun c => .text [c]) ++ ts)
  | [], _ => by cases h : lexC ws rest <;> simp [Res.bind, h]
  | c :: run, h => by
    have hc := h c (by simp)
    simp only [special, Bool.or_eq_false_iff, beq_eq_false_iff_ne] at hc
    have ih := lexC_run ws rest run (fun x hx => h x (by simp [hx]))
    rw [List.cons_append, lexC_text ws hc.1 hc.2, ih]
    cases lexC ws rest <;> simp [Res.bind]

theorem tagToken_explode {ws : Char → Bool} {a : List Char} {t : Token} (h : tagToken ws a = .ok t) :
    explode t = [t] := by
  unfold tagToken at h
  split at h
  · simp at h
  · simp only [Res.ok.injEq] at h; subst h; rfl
  · simp only [Res.ok.injEq] at h; subst h; rfl

theorem lexC_eq (ws : Char → Bool) (cs : List Char) : lexC ws cs = (lex ws cs).mapExplode := by
  induction hn : cs.length using Nat.strongRecOn generalizing cs with
  | _ n ih =>
    cases cs with
    | nil => rw [lexC_nil, lex_nil]; rfl
    | cons c cs =>
      by_cases h1 : c = '['
      · subst h1
        cases hb : tagBody 0 cs with
        | none =>
          rw [lexC.eq_def, lex.eq_def]
          dsimp only
          rw [if_pos rfl, if_pos rfl]
          split
          · split
            · rfl
            · rename_i h'; rw [hb] at h'; cases h'
          · rename_i h'; rw [hb] at h'; cases h'
        | some p =>
          obtain ⟨a, r⟩ := p
          have hlen := tagBody_length _ _ _ _ hb
          rw [lexC_tag ws hb, lex_tag ws hb, ih r.length (by simp at hn; omega) r rfl]
          cases ht : tagToken ws a with
          | ok t =>
            cases lex ws r <;> simp [Res.bind, Res.mapExplode, tagToken_explode ht]
          | err => rfl
          | panic => rfl
      · by_cases h2 : c = '\\'
        · subst h2
          cases cs with
          | nil => rw [lexC.eq_def, lex.eq_def]; rfl
          | cons e r =>
            by_cases he : e = '[' ∨ e = ']' ∨ e = '\\'
            · have he' : e ∈ ['[', ']', '\\'] := by simpa using he
              rw [lexC_esc ws he', lex_esc ws he', ih r.length (by simp at hn; omega) r rfl]
              cases lex ws r <;> simp [Res.bind, Res.mapExplode, explode]
            · rw [lexC.eq_def, lex.eq_def]
              dsimp only
              rw [if_neg (by decide), if_pos rfl, if_neg he, if_neg (by decide), if_pos rfl,
                if_neg he]
              rfl
        · have hsuf := (List.dropWhile_suffix (l := cs) (fun x => !special x)).length_le
          rw [lex_text ws h1 h2]
          have h := lexC_run ws (cs.dropWhile fun x => !special x)
            (c :: cs.takeWhile fun x => !special x) (by
              intro x hx
              rcases List.mem_cons.1 hx with rfl | hx
              · simp [special, h1, h2]
              · simpa using List.all_eq_true.1 (List.all_takeWhile (p := fun x => !special x) (l := cs)) x hx)
          rw [List.cons_append, List.takeWhile_append_dropWhile] at h
          rw [h, ih _ (by simp at hn; omega) (cs.dropWhile fun x => !special x) rfl]
          cases lex ws (cs.dropWhile fun x => !special x) <;>
            simp [Res.bind, Res.mapExplode, explode]

theorem run_append (ext : Ext) : ∀ (ts us : List Token) (p : Parser),
    p.run ext (ts ++ us) = (p.run ext ts).bind fun q => q.run ext us
  | [], us, p => by simp [Parser.run, Res.bind]
  | t :: ts, us, p => by
    simp only [List.cons_append, Parser.run]
    cases p.step ext t with
    | ok q => simp only [Res.bind]; exact run_append ext ts us q
    | err => rfl
    | panic => rfl

theorem run_chars (ext : Ext) : ∀ (s : List Char) (p : Parser),
    p.run ext (s.map fun c => .text [c]) = .ok { p with output := p.output ++ s }
  | [], p => by simp [Parser.run]
  | c :: s, p => by
    simp only [List.map_cons, Parser.run, Parser.step, Res.bind]
    rw [run_chars ext s]
    simp

theorem run_explode (ext : Ext) : ∀ (ts : List Token) (p : Parser),
    p.run ext (ts.flatMap explode) = p.run ext ts
  | [], p => rfl
  | t :: ts, p => by
    rw [List.flatMap_cons, run_append]
    have : p.run ext (explode t) = p.step ext t := by
      cases t with
      | text s => rw [explode, run_chars]; rfl
      | «open» s => simp only [explode, Parser.run]; cases p.step ext (.open s) <;> rfl
      | close s => simp only [explode, Parser.run]; cases p.step ext (.close s) <;> rfl
      | esc s => rfl
    rw [this]
    simp only [Parser.run]
    cases p.step ext t with
    | ok q => simp only [Res.bind]; exact run_explode ext ts q
    | err => rfl
    | panic => rfl

/-- `parse` through `lexC`. -/
theorem parse_eq_lexC (ext : Ext) (src : List Char) :
    parse ext src = (lexC ext.ws src).bind fun tokens =>
      (({} : Parser).run ext tokens).bind fun p => .ok ⟨p.closeAll.output, p.closeAll.spans⟩ := by
  rw [lexC_eq, parse]
  cases lex ext.ws src with
  | ok ts => simp only [Res.bind, Res.mapExplode]; rw [run_explode]
  | err => rfl
  | panic => rfl

theorem lexC_escapeChar (ws : Char → Bool) (c : Char) (r : List Char) :
    ∃ t, (t = .text [c] ∨ t = .esc c) ∧
      lexC ws (escapeChar c ++ r) = (lexC ws r).bind fun ts => .ok (t :: ts) := by
  unfold escapeChar
  by_cases h : c = '[' ∨ c = ']' ∨ c = '\\'
  · refine ⟨.esc c, Or.inr rfl, ?_⟩
    rw [if_pos h]
    exact lexC_esc ws (by simpa using h) r
  · refine ⟨.text [c], Or.inl rfl, ?_⟩
    rw [if_neg h]
    simp only [not_or] at h
    exact lexC_text ws h.1 h.2.2 r

theorem step_write (ext : Ext) (p : Parser) {t : Token} {c : Char} (h : t = .text [c] ∨ t = .esc c) :
    p.step ext t = .ok { p with output := p.output ++ [c] } := by
  rcases h with rfl | rfl <;> rfl

end Textual.Markup

namespace Textual.Markup

theorem tagBody_body (d : Nat) (cs : List Char) : ∀ a r, tagBody d cs = some (a, r) →
    Body d a ∧ cs = a ++ ']' :: r := by
  fun_induction tagBody d cs <;> intro a r h
  · simp at h
  · rename_i ih
    simp only [Option.map_eq_some_iff, Prod.mk.injEq] at h
    obtain ⟨⟨a', r'⟩, hb, rfl, rfl⟩ := h
    obtain ⟨h1, h2⟩ := ih _ _ hb
    exact ⟨.opens h1, by simp [h2]⟩
  · simp only [Option.some.injEq, Prod.mk.injEq] at h
    obtain ⟨rfl, rfl⟩ := h
    exact ⟨.nil, rfl⟩
  · rename_i ih
    simp only [Option.map_eq_some_iff, Prod.mk.injEq] at h
    obtain ⟨⟨a', r'⟩, hb, rfl, rfl⟩ := h
    obtain ⟨h1, h2⟩ := ih _ _ hb
    exact ⟨.closes h1, by simp [h2]⟩
  · simp at h
  · rename_i ih
    simp only [Option.map_eq_some_iff, Prod.mk.injEq] at h
    obtain ⟨⟨a', r'⟩, hb, rfl, rfl⟩ := h
    obtain ⟨h1, h2⟩ := ih _ _ hb
    exact ⟨.esc h1, by simp [h2]⟩
  · rename_i h1 h2 h3 ih
    simp only [Option.map_eq_some_iff, Prod.mk.injEq] at h
    obtain ⟨⟨a', r'⟩, hb, rfl, rfl⟩ := h
    obtain ⟨i1, i2⟩ := ih _ _ hb
    exact ⟨.char h1 h2 h3 i1, by simp [i2]⟩

theorem body_tagBody {d : Nat} {a : List Char} (h : Body d a) (r : List Char) :
    tagBody d (a ++ ']' :: r) = some (a, r) := by
  induction h with
  | nil => rw [tagBody.eq_def]; rfl
  | opens h ih => rw [List.cons_append, tagBody.eq_def]; simp [ih]
  | closes h ih => rw [List.cons_append, tagBody.eq_def]; simp [ih]
  | esc h ih => rw [List.cons_append, List.cons_append, tagBody.eq_def]; simp [ih]
  | char h1 h2 h3 h ih => rw [List.cons_append, tagBody.eq_def]; simp [h1, h2, h3, ih]

theorem body_of_plain : ∀ {s : List Char}, (∀ c ∈ s, c ≠ '[' ∧ c ≠ ']' ∧ c ≠ '\\') → Body 0 s
  | [], _ => .nil
  | c :: s, h => by
    have hc := h c (by simp)
    exact .char hc.1 hc.2.1 hc.2.2 (body_of_plain fun x hx => h x (by simp [hx]))

theorem lexC_shows (ws : Char → Bool) (src : List Char) : ∀ ts, lexC ws src = .ok ts →
    Shows src (ts.flatMap Token.plain) := by
  induction hn : src.length using Nat.strongRecOn generalizing src with
  | _ n ih =>
    intro ts h
    cases src with
    | nil => rw [lexC_nil] at h; simp at h; subst h; exact .nil
    | cons c cs =>
      by_cases h1 : c = '['
      · subst h1
        cases hb : tagBody 0 cs with
        | none =>
          rw [lexC.eq_def] at h
          dsimp only at h
          rw [if_pos rfl] at h
          split at h
          · cases h
          · rename_i h'; rw [hb] at h'; cases h'
        | some p =>
          obtain ⟨a, r⟩ := p
          have hlen := tagBody_length _ _ _ _ hb
          obtain ⟨b1, b2⟩ := tagBody_body _ _ _ _ hb
          rw [lexC_tag ws hb] at h
          simp only [Res.bind_eq_ok, Res.ok.injEq] at h
          obtain ⟨t, ht, us, hu, rfl⟩ := h
          have hs := ih r.length (by simp at hn; omega) r rfl us hu
          have hp : t.plain = [] := by
            unfold tagToken at ht
            split at ht
            · simp at ht
            · simp only [Res.ok.injEq] at ht; subst ht; rfl
            · simp only [Res.ok.injEq] at ht; subst ht; rfl
          have hne : a ≠ [] := by rintro rfl; simp [tagToken] at ht
          simp only [List.flatMap_cons, hp, List.nil_append, b2]
          exact .tag b1 hne hs
      · by_cases h2 : c = '\\'
        · subst h2
          cases cs with
          | nil => rw [lexC.eq_def] at h; simp at h
          | cons e r =>
            by_cases he : e = '[' ∨ e = ']' ∨ e = '\\'
            · have he' : e ∈ ['[', ']', '\\'] := by simpa using he
              rw [lexC_esc ws he'] at h
              simp only [Res.bind_eq_ok, Res.ok.injEq] at h
              obtain ⟨us, hu, rfl⟩ := h
              exact .esc he' (ih r.length (by simp at hn; omega) r rfl us hu)
            · rw [lexC.eq_def] at h
              dsimp only at h
              rw [if_neg (by decide), if_pos rfl, if_neg he] at h
              cases h
        · rw [lexC_text ws h1 h2] at h
          simp only [Res.bind_eq_ok, Res.ok.injEq] at h
          obtain ⟨us, hu, rfl⟩ := h
          exact .char h1 h2 (ih cs.length (by simp at hn; omega) cs rfl us hu)

theorem createSpan_out_run (ext : Ext) {p q : Parser} {t : Token} (h : p.step ext t = .ok q) :
    q.output = p.output ++ t.plain := by
  have hpop : p.pop.output = p.output := by rw [pop_eq, foldl_createSpan_output]
  have hpm : ∀ n, (p.popMatching ext.lower n).output = p.output := fun n => by
    unfold Parser.popMatching; rw [foldl_createSpan_output]
  cases t with
  | text s => simp only [Parser.step, Res.ok.injEq] at h; subst h; rfl
  | esc c => simp only [Parser.step, Res.ok.injEq] at h; subst h; rfl
  | close spec =>
    cases spec with
    | none => simp only [Parser.step, Res.ok.injEq] at h; subst h; simp [hpop, Token.plain]
    | some n => simp only [Parser.step, Res.ok.injEq] at h; subst h; simp [hpm, Token.plain]
  | «open» content =>
    simp only [Parser.step, Res.bind_eq_ok] at h
    obtain ⟨t, _, h⟩ := h
    cases t <;> simp only [Res.ok.injEq] at h <;> subst h
    · simp [Parser.push, Token.plain]
    · simp [Parser.push, Token.plain]
    · simp [hpop, Token.plain]
    · simp [hpm, Token.plain]

theorem run_output (ext : Ext) : ∀ (ts : List Token) {p q : Parser}, p.run ext ts = .ok q →
    q.output = p.output ++ ts.flatMap Token.plain
  | [], p, q, h => by simp only [Parser.run, Res.ok.injEq] at h; subst h; simp
  | t :: ts, p, q, h => by
    simp only [Parser.run, Res.bind_eq_ok] at h
    obtain ⟨p', h1, h2⟩ := h
    rw [run_output ext ts h2, createSpan_out_run ext h1]
    simp

end Textual.Markup
