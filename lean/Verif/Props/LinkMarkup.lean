import Verif.Props.FromMarkup
import Verif.Props.OnScreen
import Verif.Lemmas.Sewn
import Verif.Props.StaticCases
import Mathlib.Tactic.Common

/-!
C199: links written in markup. Code: rich parser/tag.rs:40-113, parser/lexer.rs:61-175, parser/markup.rs:28-204 and textual
content.rs, as modelled in `Model/Markup.lean`, `Model/FromMarkup.lean` and `Model/Content.lean`.
-/

namespace Textual.Markup

/-! ### Specification -/

/-- No white space at either end. -/
def Bare (ws : Char → Bool) (s : List Char) : Prop :=
  (∀ c, s.head? = some c → ws c = false) ∧ ∀ c, s.getLast? = some c → ws c = false

/-- Nothing but white space. -/
def Blank (ws : Char → Bool) (s : List Char) : Prop := ∀ c ∈ s, ws c = true

/-! ### White space -/

theorem dropWhile_bare {ws : Char → Bool} {s : List Char} (h : ∀ c, s.head? = some c → ws c = false) : s.dropWhile ws = s := by
  cases s with
  | nil => rfl
  | cons c s => rw [List.dropWhile_cons_of_neg (by rw [h c rfl]; decide)]

theorem dropWhile_blank {ws : Char → Bool} : ∀ {p : List Char} (s : List Char), Blank ws p → (p ++ s).dropWhile ws = s.dropWhile ws
  | [], _, _ => rfl
  | c :: p, s, h => by
    rw [List.cons_append, List.dropWhile_cons_of_pos (h c (List.mem_cons_self ..))]
    exact dropWhile_blank s fun x hx => h x (List.mem_cons_of_mem _ hx)

theorem trim_around {ws : Char → Bool} {p s q : List Char} (hp : Blank ws p) (hs : Bare ws s) (hq : Blank ws q) :
    trim ws (p ++ s ++ q) = s := by
  have hr : Blank ws q.reverse := fun c hc => hq c (List.mem_reverse.1 hc)
  have hb : ∀ c, s.reverse.head? = some c → ws c = false := by
    intro c hc
    rw [List.head?_reverse] at hc
    exact hs.2 c hc
  unfold trim
  rw [List.append_assoc, dropWhile_blank _ hp]
  cases s with
  | nil =>
    have h0 := dropWhile_blank [] hq
    rw [List.append_nil] at h0
    rw [List.nil_append, h0]
    rfl
  | cons c s =>
    rw [dropWhile_bare (s := c :: s ++ q) (by intro x hx; exact hs.1 x (by simpa using hx)), List.reverse_append, dropWhile_blank _ hr,
      dropWhile_bare hb, List.reverse_reverse]

theorem find_eq : ∀ (k v : List Char), '=' ∉ k → (k ++ '=' :: v).findIdx? (· == '=') = some k.length
  | [], v, _ => rfl
  | c :: k, v, h => by
    rw [List.cons_append, List.findIdx?_cons, if_neg (by
      rw [beq_iff_eq]; rintro rfl; exact h (List.mem_cons_self ..)),
      find_eq k v fun hm => h (List.mem_cons_of_mem _ hm)]
    rfl

/-! ### Tags -/

/-- The tag `@key=value`, with white space anywhere between, at the ends or around the `=`, is read as written. -/
theorem meta_tag (ext : Ext) (hat : ext.ws '@' = false) (heq : ext.ws '=' = false) (key value p0 p1 p2 p3 p4 : List Char)
    (hk : Bare ext.ws key) (hke : '=' ∉ key) (hv : Bare ext.ws value)
    (b0 : Blank ext.ws p0) (b1 : Blank ext.ws p1) (b2 : Blank ext.ws p2) (b3 : Blank ext.ws p3) (b4 : Blank ext.ws p4) :
    Tag.parse ext (p0 ++ '@' :: (p1 ++ key ++ p2) ++ '=' :: (p3 ++ value ++ p4)) = .ok (.info ('@' :: key) value) := by
  have hK : '=' ∉ p1 ++ key ++ p2 := by
    intro h
    rcases List.mem_append.1 h with h | h
    · rcases List.mem_append.1 h with h | h
      · rw [b1 _ h] at heq; cases heq
      · exact hke h
    · rw [b2 _ h] at heq; cases heq
  obtain ⟨v, q, e, bq, hb, hv'⟩ : ∃ v q, p3 ++ value ++ p4 = v ++ q ∧ Blank ext.ws q ∧
      (∀ c, ('=' :: v).getLast? = some c → ext.ws c = false) ∧ trim ext.ws v = value := by
    by_cases hn : value = []
    · subst hn
      refine ⟨[], p3 ++ [] ++ p4, rfl, ?_, ?_, rfl⟩
      · intro c hc
        rw [List.append_nil] at hc
        rcases List.mem_append.1 hc with hc | hc
        · exact b3 c hc
        · exact b4 c hc
      · intro c hc
        cases hc
        exact heq
    · refine ⟨p3 ++ value, p4, rfl, b4, ?_, ?_⟩
      · intro c hc
        refine hv.2 c ?_
        rw [List.getLast?_cons, List.getLast?_append, List.getLast?_eq_some_getLast hn] at hc
        rw [List.getLast?_eq_some_getLast hn]
        simpa using hc
      · have := trim_around (q := []) b3 hv (by intro c hc; cases hc)
        rwa [List.append_nil] at this
  have ht : trim ext.ws (p0 ++ '@' :: (p1 ++ key ++ p2) ++ '=' :: (p3 ++ value ++ p4)) =
      '@' :: ((p1 ++ key ++ p2) ++ '=' :: v) := by
    rw [e, show p0 ++ '@' :: (p1 ++ key ++ p2) ++ '=' :: (v ++ q) = p0 ++ ('@' :: ((p1 ++ key ++ p2) ++ '=' :: v)) ++ q by simp]
    refine trim_around b0 ⟨?_, ?_⟩ bq
    · intro c hc
      cases hc
      exact hat
    · intro c hc
      refine hb c ?_
      rw [← hc]
      generalize p1 ++ key ++ p2 = K
      rw [show '@' :: (K ++ '=' :: v) = ('@' :: K) ++ '=' :: v from rfl, List.getLast?_append]
      rw [List.getLast?_cons]
      rfl
  unfold Tag.parse
  dsimp only
  rw [ht]
  show Res.ok (parseMeta ext _) = _
  unfold parseMeta
  rw [find_eq _ _ hK]
  dsimp only
  rw [List.take_left, show (p1 ++ key ++ p2 ++ '=' :: v).drop ((p1 ++ key ++ p2).length + 1) = v by
    rw [← List.drop_drop, List.drop_left]; rfl, trim_around b1 hk b2, hv']

theorem dropWhile_quote {q : Char} {s : List Char} (h : s.head? ≠ some q) : s.dropWhile (· == q) = s :=
  dropWhile_bare fun c hc => by
    rw [beq_eq_false_iff_ne]
    rintro rfl
    exact h hc

/-- An address without quotes at its ends, in the quotes `o` … `o` or bare: read as written. -/
theorem link_tag (ext : Ext) (hl : ∀ c ∈ "link=".toList, ext.ws c = false) (url o p0 p1 p2 : List Char)
    (hsep : ∀ c ∈ "'\"".toList, ext.ws c = false)
    (hu : Bare ext.ws url) (hne : url ≠ []) (hq : ∀ q ∈ "'\"".toList, url.head? ≠ some q ∧ url.getLast? ≠ some q)
    (ho : o = [] ∨ o = ['\''] ∨ o = ['"']) (b0 : Blank ext.ws p0) (b1 : Blank ext.ws p1) (b2 : Blank ext.ws p2) :
    Tag.parse ext (p0 ++ "link=".toList ++ p1 ++ (o ++ url ++ o) ++ p2) = .ok (.info "@link".toList url) := by
  have hB : Bare ext.ws (o ++ url ++ o) := by
    rcases ho with rfl | rfl | rfl
    · simpa using hu
    · refine ⟨?_, ?_⟩ <;> intro c hc
      · cases hc; exact hsep _ (by decide)
      · rw [List.getLast?_append] at hc; cases hc; exact hsep _ (by decide)
    · refine ⟨?_, ?_⟩ <;> intro c hc
      · cases hc; exact hsep _ (by decide)
      · rw [List.getLast?_append] at hc; cases hc; exact hsep _ (by decide)
  have hne' : o ++ url ++ o ≠ [] := by
    intro h
    exact hne (List.append_eq_nil_iff.1 (List.append_eq_nil_iff.1 h).1).2
  have ht : trim ext.ws (p0 ++ "link=".toList ++ p1 ++ (o ++ url ++ o) ++ p2) = "link=".toList ++ (p1 ++ (o ++ url ++ o)) := by
    rw [show p0 ++ "link=".toList ++ p1 ++ (o ++ url ++ o) ++ p2 = p0 ++ ("link=".toList ++ (p1 ++ (o ++ url ++ o))) ++ p2 by
      simp only [List.append_assoc]]
    refine trim_around b0 ⟨?_, ?_⟩ b2
    · intro c hc
      cases hc
      exact hl _ (by decide)
    · intro c hc
      refine hB.2 c ?_
      rw [List.getLast?_append, List.getLast?_append, List.getLast?_eq_some_getLast hne'] at hc
      rw [List.getLast?_eq_some_getLast hne']
      simpa using hc
  have ht2 : trim ext.ws (p1 ++ (o ++ url ++ o)) = o ++ url ++ o := by
    have := trim_around (q := []) b1 hB (by intro c hc; cases hc)
    rwa [List.append_nil] at this
  have hu1 := hq '\'' (by decide)
  have hu2 := hq '"' (by decide)
  have r1 : url.reverse.head? ≠ some '\'' := by rw [List.head?_reverse]; exact hu1.2
  have r2 : url.reverse.head? ≠ some '"' := by rw [List.head?_reverse]; exact hu2.2
  have key : parseLink ext ("link=".toList ++ (p1 ++ (o ++ url ++ o))) = .info "@link".toList url := by
    unfold parseLink
    dsimp only
    rw [show ("link=".toList ++ (p1 ++ (o ++ url ++ o))).drop 5 = p1 ++ (o ++ url ++ o) from rfl, ht2]
    congr 1
    obtain ⟨c, u, rfl⟩ := List.exists_cons_of_ne_nil hne
    have hc1 : c ≠ '\'' := fun h => hu1.1 (by rw [h]; rfl)
    have hc2 : c ≠ '"' := fun h => hu2.1 (by rw [h]; rfl)
    have head : ∀ s : List Char, ((c :: u) ++ s).dropWhile (· == '\'') = (c :: u) ++ s := fun s => dropWhile_quote (by simpa using hc1)
    have head2 : ∀ s : List Char, ((c :: u) ++ s).dropWhile (· == '"') = (c :: u) ++ s := fun s => dropWhile_quote (by simpa using hc2)
    rcases ho with rfl | rfl | rfl
    · rw [List.nil_append, head, head2, List.append_nil, dropWhile_quote r1, List.reverse_reverse, dropWhile_quote r2,
        List.reverse_reverse]
    · rw [List.append_assoc, List.singleton_append, List.dropWhile_cons_of_pos (by decide), head, head2, List.reverse_append,
        List.reverse_singleton, List.singleton_append, List.dropWhile_cons_of_pos (by decide), dropWhile_quote r1,
        List.reverse_reverse, dropWhile_quote r2, List.reverse_reverse]
    · have e1 : ('"' :: (c :: u ++ ['"'])).dropWhile (· == '\'') = '"' :: (c :: u ++ ['"']) := dropWhile_quote (by simp)
      have e2 : ('"' :: (c :: u).reverse).dropWhile (· == '\'') = '"' :: (c :: u).reverse := dropWhile_quote (by simp)
      have e3 : ('"' :: (c :: u ++ ['"'])).dropWhile (· == '"') = c :: u ++ ['"'] := by
        rw [List.dropWhile_cons_of_pos (by decide), head2]
      rw [List.append_assoc, List.singleton_append, e1, e3, List.reverse_append, List.reverse_singleton, List.singleton_append,
        e2, List.reverse_reverse, List.dropWhile_cons_of_pos (by decide), dropWhile_quote r2, List.reverse_reverse]
  unfold Tag.parse
  dsimp only
  rw [ht]
  show (if "link=".toList.isPrefixOf ("link=".toList ++ (p1 ++ (o ++ url ++ o))) || _ then _ else _) = _
  rw [if_pos (by rw [Bool.or_eq_true]; left; exact List.isPrefixOf_iff_prefix.2 (List.prefix_append ..)), key]

/-! ### Texts with a link -/

/-- Text before, a link around some text, text after: the text is shown as it is, and exactly the text inside the tags carries
what the tag says. -/
theorem info_scope (ext : Ext) (before tag shown after k v : List Char) (hb : Body 0 tag) (hne : tag ≠ [])
    (hs : tag.head? ≠ some '/') (hp : Tag.parse ext tag = .ok (.info k v)) :
    parse ext (escape before ++ ('[' :: tag ++ [']']) ++ escape shown ++ "[/]".toList ++ escape after) =
      .ok ⟨before ++ shown ++ after, if shown = [] then [] else [⟨blen before, blen (before ++ shown), {}, [(k, v)]⟩]⟩ := by
  obtain ⟨tb, b1, b2⟩ := lexC_escape ext [] after
  rw [List.append_nil, lexC_nil] at b1
  obtain ⟨ta, a1, a2⟩ := lexC_escape ext ('[' :: ('/' :: [] ++ ']' :: escape after)) shown
  rw [lexC_close ext (by simp), b1] at a1
  obtain ⟨tc, c1, c2⟩ := lexC_escape ext ('[' :: (tag ++ ']' :: (escape shown ++ ('[' :: ('/' :: [] ++ ']' :: escape after))))) before
  have hopen : tagToken ext.ws tag = .ok (.open tag) := by
    match tag, hne, hs with
    | c :: t, _, hs =>
      have hc : c ≠ '/' := by simpa using hs
      unfold tagToken
      split
      · cases ‹c :: t = []›
      · rename_i h; simp only [List.cons.injEq] at h; exact absurd h.1 hc
      · rfl
  rw [lexC_tag ext.ws (body_tagBody hb _), hopen, a1] at c1
  have e : escape before ++ ('[' :: tag ++ [']']) ++ escape shown ++ "[/]".toList ++ escape after =
      escape before ++ '[' :: (tag ++ ']' :: (escape shown ++ ('[' :: ('/' :: [] ++ ']' :: escape after)))) := by
    rw [show "[/]".toList = ['[', '/', ']'] from rfl]
    simp
  rw [e, parse_eq_lexC, c1]
  simp only [Res.bind]
  rw [run_append, c2]
  simp only [Res.bind, Parser.run, Parser.step, hp]
  rw [run_append, a2]
  simp only [Res.bind, Parser.run, Parser.push]
  rw [show (trim ext.ws ([] : List Char)).isEmpty = true from rfl, if_pos rfl]
  simp only [Parser.step, Parser.pop, Res.bind, List.nil_append]
  rw [List.append_nil, b2]
  have hx : blen (before ++ shown) = blen before + blen shown := by simp [blen]
  have hz := @blen_eq_zero shown
  by_cases h : shown = []
  · subst h
    simp [Parser.createSpan, Parser.closeAll]
  · have : 0 < blen shown := Nat.pos_of_ne_zero (mt hz.1 h)
    simp [Parser.createSpan, Parser.closeAll, h, hx, this]

/-- **C199** (markup): whatever stands before and after, the tag `[@key=value]…[/]` shows the text inside and gives exactly
that text the value, for every value with balanced brackets, quotes and `=` included, and white space around either. -/
theorem action_scope_partial (ext : Ext) (hat : ext.ws '@' = false) (heq : ext.ws '=' = false)
    (before key value shown after p0 p1 p2 p3 p4 : List Char)
    (hk : Bare ext.ws key) (hke : '=' ∉ key) (hv : Bare ext.ws value) (hslash : ext.ws '/' = false)
    (b0 : Blank ext.ws p0) (b1 : Blank ext.ws p1) (b2 : Blank ext.ws p2) (b3 : Blank ext.ws p3) (b4 : Blank ext.ws p4)
    (hb : Body 0 (p0 ++ '@' :: (p1 ++ key ++ p2) ++ '=' :: (p3 ++ value ++ p4))) :
    parse ext (escape before ++ ('[' :: (p0 ++ '@' :: (p1 ++ key ++ p2) ++ '=' :: (p3 ++ value ++ p4)) ++ [']']) ++ escape shown ++
        "[/]".toList ++ escape after) =
      .ok ⟨before ++ shown ++ after,
        if shown = [] then [] else [⟨blen before, blen (before ++ shown), {}, [('@' :: key, value)]⟩]⟩ := by
  refine info_scope ext before _ shown after _ _ hb (by simp) ?_ (meta_tag ext hat heq key value p0 p1 p2 p3 p4 hk hke hv b0 b1 b2 b3 b4)
  cases p0 with
  | nil => simp
  | cons c p0 =>
    intro h
    have : c = '/' := by simpa using h
    have := b0 c (List.mem_cons_self ..)
    simp_all

/-- **C199** (markup): likewise `[link=…]…[/]`, with the address in quotes or not. -/
theorem url_scope_partial (ext : Ext) (hl : ∀ c ∈ "/link='\"".toList, ext.ws c = false)
    (before url o shown after p0 p1 p2 : List Char)
    (hu : Bare ext.ws url) (hne : url ≠ []) (hq : ∀ q ∈ "'\"".toList, url.head? ≠ some q ∧ url.getLast? ≠ some q)
    (ho : o = [] ∨ o = ['\''] ∨ o = ['"']) (b0 : Blank ext.ws p0) (b1 : Blank ext.ws p1) (b2 : Blank ext.ws p2)
    (hb : Body 0 (p0 ++ "link=".toList ++ p1 ++ (o ++ url ++ o) ++ p2)) :
    parse ext (escape before ++ ('[' :: (p0 ++ "link=".toList ++ p1 ++ (o ++ url ++ o) ++ p2) ++ [']']) ++ escape shown ++
        "[/]".toList ++ escape after) =
      .ok ⟨before ++ shown ++ after,
        if shown = [] then [] else [⟨blen before, blen (before ++ shown), {}, [("@link".toList, url)]⟩]⟩ := by
  refine info_scope ext before _ shown after _ _ hb (by simp) ?_ (link_tag ext ?_ url o p0 p1 p2 ?_ hu hne hq ho b0 b1 b2)
  · cases p0 with
    | nil => simp
    | cons c p0 =>
      intro h
      have : c = '/' := by simpa using h
      have := b0 c (List.mem_cons_self ..)
      have := hl '/' (by decide)
      simp_all
  · intro c hc
    exact hl c (by revert hc; revert c; decide)
  · intro c hc
    exact hl c (by revert hc; revert c; decide)

example : parse asciiExt "Press [ @click = f('=', [1]) ]he\\[re[/]!".toList = .ok ⟨"Press he[re!".toList,
    [⟨6, 11, {}, [("@click".toList, "f('=', [1])".toList)]⟩]⟩ :=
  action_scope_partial asciiExt (by decide) (by decide) "Press ".toList "click".toList "f('=', [1])".toList "he[re".toList "!".toList
    [' '] [] [' '] [' '] [' '] (by unfold Bare; decide) (by decide) (by unfold Bare; decide) (by decide)
    (by unfold Blank; decide) (by unfold Blank; decide) (by unfold Blank; decide) (by unfold Blank; decide) (by unfold Blank; decide)
    (tagBody_body 0 (" @click = f('=', [1]) ".toList ++ [']']) _ [] (by decide +kernel)).1

example : parse asciiExt "[link=\"http://[::1]/\"]x[/]".toList = .ok ⟨"x".toList,
    [⟨0, 1, {}, [("@link".toList, "http://[::1]/".toList)]⟩]⟩ :=
  url_scope_partial asciiExt (by decide) [] "http://[::1]/".toList ['"'] "x".toList [] [] [] [] (by unfold Bare; decide) (by decide)
    (by decide) (by decide) (by unfold Blank; decide) (by unfold Blank; decide) (by unfold Blank; decide)
    (tagBody_body 0 ("link=\"http://[::1]/\"".toList ++ [']']) _ [] (by decide +kernel)).1

/-- **C199** fails for actions with a bracket on its own: the tag ends there, quotes or not, and the rest of it is shown; an
escaped bracket keeps its backslash. -/
theorem bracket_counterexample :
    parse asciiExt "[@click=f(']')]x[/]".toList = .ok ⟨"')]x".toList, [⟨0, 4, {}, [("@click".toList, "f('".toList)]⟩]⟩ ∧
    parse asciiExt "[@click=f('\\]')]x[/]".toList = .ok ⟨"x".toList, [⟨0, 1, {}, [("@click".toList, "f('\\]')".toList)]⟩]⟩ := by
  decide +kernel

/-- **C199** fails for addresses that end with a quote: it is lost. -/
theorem quote_counterexample :
    parse asciiExt "[link=http://a/Rock'n']x[/]".toList = .ok ⟨"x".toList, [⟨0, 1, {}, [("@link".toList, "http://a/Rock'n".toList)]⟩]⟩ := by
  decide +kernel

end Textual.Markup

namespace Textual.Static

open Markup (Res)
open FromMarkup
open Content (WrappedLine Glyph ellipsis Solid Aligned)
open RenderCache (cacheAfter NoOutline)

/-! ### On the screen -/

theorem cells_glyphs {s : Strip} {x : StripCell} (h : x ∈ s.cells) : (x.g, x.style.getD {}, x.info) ∈ Content.glyphs s := by
  unfold Strip.cells at h
  obtain ⟨seg, hs, hx⟩ := List.mem_flatMap.1 h
  refine List.mem_flatMap.2 ⟨seg, hs, List.mem_map.2 ⟨x.g, ?_, ?_⟩⟩
  · exact (Fade.mem_textCells hx).2.2.1
  · rw [(Fade.mem_textCells hx).1, (Fade.mem_textCells hx).2.1]

/-- The action the markup gives a place of the text. -/
def actionAt (m : Markup.Parsed) (pos : Nat) : Option String := ((m.metaAt pos).lookup "@click".toList).map String.ofList

theorem lookup_ofList (key : List Char) : ∀ l : Markup.Meta,
    (l.map fun kv => (String.ofList kv.1, String.ofList kv.2)).lookup (String.ofList key) = (l.lookup key).map String.ofList
  | [] => rfl
  | (k, v) :: l => by
    rw [List.map_cons, List.lookup_cons, List.lookup_cons]
    by_cases h : key = k
    · subst h; simp
    · have h' : String.ofList key ≠ String.ofList k := fun e => h (String.ofList_injective e)
      rw [beq_eq_false_iff_ne.2 h, beq_eq_false_iff_ne.2 h']
      exact lookup_ofList key l

theorem annotate_info (c : Content.Content) (spans : List Content.Span) :
    ∀ (t : List Grapheme) (pos : Nat) (pre post : List Content.Glyph) (x : Content.Glyph),
      c.annotate spans pos t = pre ++ x :: post → x.2.2 = Content.metaAt spans (pos + Content.blen (pre.map (·.1)))
  | [], _, pre, _, _, h => by simp [Content.Content.annotate] at h
  | g :: gs, pos, pre, post, x, h => by
    unfold Content.Content.annotate at h
    cases pre with
    | nil =>
      rw [List.nil_append] at h
      obtain ⟨rfl, _⟩ := List.cons.inj h
      simp only [List.map_nil, Content.blen, List.sum_nil, Nat.add_zero]
    | cons p ps =>
      rw [List.cons_append] at h
      obtain ⟨rfl, h'⟩ := List.cons.inj h
      have := annotate_info c spans gs (pos + Content.gbytes g) ps post x h'
      have e : pos + Content.gbytes g + Content.blen (ps.map (·.1)) =
          pos + Content.blen (((g, c.styleAt spans pos, Content.metaAt spans pos) :: ps).map (·.1)) := by
        rw [List.map_cons]; unfold Content.blen; rw [List.map_cons, List.sum_cons, Nat.add_assoc]
      rw [e] at this
      exact this

/-- **C199** (text): every character of the lines of a text widget, but for blanks and the ellipsis, stands in the text of the
markup, and has the action the markup gives it there. -/
theorem line_actions (cluster : List Char → List Grapheme) (src : List Char) (m : Markup.Parsed)
    (h : Markup.parse ext src = .ok m) (hs : Solid (cluster m.text))
    (ha : Aligned (m.spans.map convertSpan) (cluster m.text)) (s : Sheet) (ws : Grapheme → Bool) (hovered : Option String) (w : Nat) :
    ∃ c, fromMarkup cluster src = .ok c ∧ ∀ lines, textLines s ws c hovered w = some lines → ∀ line ∈ lines, ∀ x ∈ line.strip.cells,
      (x.g = Grapheme.space ∨ x.g = ellipsis) ∧ linkOf x = none ∨
      ∃ pre post, cluster m.text = pre ++ x.g :: post ∧ linkOf x = actionAt m (Content.blen pre) := by
  obtain ⟨sp, hc, hspans⟩ : ∃ sp : Option (List Content.Span),
      fromMarkup cluster src = .ok { text := cluster m.text, spans := sp } ∧ sp.getD [] = m.spans.map convertSpan := by
    refine ⟨if (m.spans.map convertSpan).isEmpty then none else some (m.spans.map convertSpan), ?_, ?_⟩
    · unfold fromMarkup; rw [h]; rfl
    · split
      · next he => simpa using (List.isEmpty_iff.mp he).symm
      · rfl
  refine ⟨_, hc, ?_⟩
  intro lines e line hl x hx
  refine (textLines_sewn (Q := fun y => (y.1 = Grapheme.space ∨ y.1 = ellipsis) ∧ y.2.2.lookup "@click" = none ∨
    ∃ pre post, cluster m.text = pre ++ y.1 :: post ∧ y.2.2.lookup "@click" = actionAt m (Content.blen pre)) s ws _ hs
    (by dsimp only; rw [hspans]; exact ha) hovered ?_ (fun st => .inl ⟨.inl rfl, rfl⟩) (fun st => .inl ⟨.inr rfl, rfl⟩) w lines e line hl).glyphs
    _ (cells_glyphs hx)
  intro y hy
  right
  unfold Content.Content.annotated at hy
  dsimp only at hy
  rw [hspans] at hy
  obtain ⟨A, B, hAB⟩ := List.append_of_mem hy
  have hmap := congrArg (List.map (·.1)) hAB
  rw [Content.annotate_map, List.map_append, List.map_cons] at hmap
  refine ⟨_, _, hmap, ?_⟩
  have hmeta := annotate_info _ _ _ 0 A B y hAB
  rw [Nat.zero_add] at hmeta
  have := covering_meta m.spans (parse_single h) (Content.blen (A.map (·.1))) []
  rw [List.map_nil, List.append_nil] at this
  rw [hmeta, this]
  exact lookup_ofList "@click".toList _

theorem fit_of_one {line : WrappedLine} (h : line.strip.OneColumn) (n : Nat) : Fit n line :=
  ⟨h.wf, spaces_of_made h, Strip.narrow_onBoundary _ (width_of_made h) n⟩

/-- **C199** (mouse): a click on a cell that shows a character of the text finds the action the markup gives the character. -/
theorem click_actions_partial (cluster : List Char → List Grapheme) (src : List Char) (m : Markup.Parsed)
    (h : Markup.parse ext src = .ok m) (hs : Solid (cluster m.text))
    (ha : Aligned (m.spans.map convertSpan) (cluster m.text)) (h1 : ∀ g ∈ cluster m.text, g.text ≠ "\n" → g.width = 1)
    (hist : List RenderCache.Sheet) (s : Sheet) (ws : Grapheme → Bool) (hovered : Option String) (title subtitle : Option Strip)
    (w hgt : Nat) (ho : NoOutline s.frame) (htop : s.frame.border.top.kind.horizontal = true ∨ title = none)
    (ht1 : Unlinked title) (ht2 : Unlinked subtitle) :
    ∃ c, fromMarkup cluster src = .ok c ∧ ∀ lines,
      textLines s ws c hovered ((cacheAfter hist s.frame).innerSize w hgt).1 = some lines → ∀ x y row cell,
      (drawLines s (cacheAfter hist s.frame) lines title subtitle w hgt).rows[y]? = some row → row.cells[x]? = some cell →
      (∃ line ∈ lines, cell ∈ line.strip.cells) → cell.g ≠ Grapheme.space → cell.g ≠ ellipsis →
      ∃ pre post, cluster m.text = pre ++ cell.g :: post ∧
        findLink (drawLines s (cacheAfter hist s.frame) lines title subtitle w hgt).links x y = actionAt m (Content.blen pre) := by
  obtain ⟨c, hc, key⟩ := line_actions cluster src m h hs ha s ws hovered ((cacheAfter hist s.frame).innerSize w hgt).1
  refine ⟨c, hc, ?_⟩
  intro lines e x y row cell hrow hcell ⟨line, hl, hm⟩ n1 n2
  have htext : c.text = cluster m.text := by
    unfold fromMarkup at hc
    rw [h] at hc
    cases hc
    rfl
  have one := textLines_one s ws c (by rw [htext]; exact h1) hovered _ lines e
  rw [links_exact_partial hist s lines title subtitle w hgt x y row cell ho htop (fun l hl => fit_of_one (one l hl) _) ht1 ht2 hrow hcell]
  rcases key lines e line hl cell hm with ⟨h | h, _⟩ | h
  · exact absurd h n1
  · exact absurd h n2
  · exact h

theorem place {before shown after pre post : List Char} {c : Char} (h : before ++ shown ++ after = pre ++ c :: post)
    (h1 : c ∉ before) (h2 : c ∉ after) : ∃ a b, shown = a ++ c :: b ∧ pre = before ++ a := by
  rw [List.append_assoc] at h
  rcases List.append_eq_append_iff.1 h with ⟨a, e1, e2⟩ | ⟨a, e1, e2⟩
  · rcases List.append_eq_append_iff.1 e2 with ⟨b, f1, f2⟩ | ⟨b, f1, f2⟩
    · cases b with
      | nil => exact absurd (by rw [List.nil_append] at f2; rw [f2]; exact List.mem_cons_self ..) h2
      | cons x b => exact absurd (by rw [f2]; simp) h2
    · cases b with
      | nil => exact absurd (by rw [List.nil_append] at f2; rw [← f2]; exact List.mem_cons_self ..) h2
      | cons x b =>
        obtain ⟨rfl, _⟩ := List.cons.inj f2
        exact ⟨a, b, f1, e1⟩
  · cases a with
    | nil =>
      rw [List.append_nil] at e1
      rw [List.nil_append] at e2
      cases shown with
      | nil => exact absurd (by rw [List.nil_append] at e2; rw [← e2]; exact List.mem_cons_self ..) h2
      | cons x b =>
        obtain ⟨rfl, _⟩ := List.cons.inj e2
        exact ⟨[], b, rfl, by rw [e1]; simp⟩
    | cons x a =>
      obtain ⟨rfl, _⟩ := List.cons.inj e2
      exact absurd (by rw [e1]; simp) h1

/-- What is parsed from a text with one link. -/
def oneLink (before action shown after : List Char) : Markup.Parsed :=
  ⟨before ++ shown ++ after, if shown = [] then [] else
    [⟨Markup.blen before, Markup.blen (before ++ shown), {}, [("@click".toList, action)]⟩]⟩

theorem oneLink_parse (before action shown after : List Char) (ha1 : Markup.Bare Char.isWhitespace action)
    (ha2 : Markup.Body 0 ("@click=".toList ++ action)) :
    Markup.parse ext (Markup.escape before ++ ('[' :: ("@click=".toList ++ action) ++ [']']) ++ Markup.escape shown ++
      "[/]".toList ++ Markup.escape after) = .ok (oneLink before action shown after) := by
  have blank : ∀ p : List Char, p = [] → Markup.Blank Char.isWhitespace p := by rintro p rfl c hc; cases hc
  have := Markup.action_scope_partial ext (by decide) (by decide) before "click".toList action shown after [] [] [] [] []
    (by unfold Markup.Bare; decide) (by decide) ha1 (by decide) (blank _ rfl) (blank _ rfl) (blank _ rfl) (blank _ rfl) (blank _ rfl)
    (by simpa using ha2)
  simpa [oneLink] using this

theorem oneLink_action (before action shown after p q : List Char) (ch : Char) (e1 : before ++ shown ++ after = p ++ ch :: q) :
    (ch ∉ before → ch ∉ after → actionAt (oneLink before action shown after) (Markup.blen p) = some (String.ofList action)) ∧
    (ch ∉ shown → actionAt (oneLink before action shown after) (Markup.blen p) = none) := by
  unfold oneLink
  unfold actionAt Markup.Parsed.metaAt
  dsimp only
  constructor
  · intro h1 h2
    obtain ⟨a, b, f1, f2⟩ := place e1 h1 h2
    have hne : shown ≠ [] := by rw [f1]; simp
    rw [if_neg hne]
    have : (Markup.Span.mk (Markup.blen before) (Markup.blen (before ++ shown)) {} [("@click".toList, action)]).contains (Markup.blen p) = true := by
      unfold Markup.Span.contains
      rw [decide_eq_true_eq, f2, f1]
      have := Markup.utf8Size_pos ch
      simp [Markup.blen]
      omega
    simp only [List.foldl_cons, List.foldl_nil, this, if_true]
    rfl
  · intro h1
    by_cases hne : shown = []
    · rw [if_pos hne]; rfl
    rw [if_neg hne]
    have : (Markup.Span.mk (Markup.blen before) (Markup.blen (before ++ shown)) {} [("@click".toList, action)]).contains (Markup.blen p) = false := by
      unfold Markup.Span.contains
      rw [decide_eq_false_iff_not]
      rintro ⟨g1, g2⟩
      dsimp only at g1 g2
      rw [List.append_assoc] at e1
      rcases List.append_eq_append_iff.1 e1 with ⟨a, f1, f2⟩ | ⟨a, f1, f2⟩
      · rcases List.append_eq_append_iff.1 f2 with ⟨b, f3, f4⟩ | ⟨b, f3, f4⟩
        · rw [f1, f3] at g2
          simp [Markup.blen] at g2
        · cases b with
          | nil =>
            rw [f1, f3] at g2
            simp [Markup.blen] at g2
          | cons x b =>
            obtain ⟨rfl, _⟩ := List.cons.inj f4
            exact h1 (by rw [f3]; simp)
      · cases a with
        | nil =>
          cases shown with
          | nil => exact hne rfl
          | cons x b =>
            obtain ⟨rfl, _⟩ := List.cons.inj f2
            exact h1 (by simp)
        | cons x a =>
          rw [f1] at g1
          have := Markup.utf8Size_pos x
          simp [Markup.blen] at g1
          omega
    simp only [List.foldl_cons, List.foldl_nil, this]
    rfl

theorem byChar_place (wd : Char → Nat) (text : List Char) (pre post : List Grapheme) (g : Grapheme) (ch : Char)
    (hch : g.text = String.singleton ch) (k1 : byChar wd text = pre ++ g :: post) :
    ∃ p q, text = p ++ ch :: q ∧ pre = byChar wd p := by
  have sing : ∀ a b : Char, String.singleton a = String.singleton b → a = b := by
    intro a b h
    have := congrArg String.toList h
    simpa using this
  unfold byChar at k1
  obtain ⟨p, r, f1, f2, f3⟩ := List.map_eq_append_iff.1 k1
  obtain ⟨d, q, g1, g2, g3⟩ := List.map_eq_cons_iff.1 f3
  refine ⟨p, q, ?_, f2.symm⟩
  rw [f1, g1]
  have : d = ch := sing _ _ (by rw [← hch, ← g2])
  rw [this]

theorem not_named {g h : Grapheme} {ch d : Char} (hch : g.text = String.singleton ch) (hd : h.text = String.singleton d) (n : ch ≠ d) :
    g ≠ h := by
  rintro rfl
  rw [hch] at hd
  have := congrArg String.toList hd
  simp at this
  exact n this

/-- **C199** (one link): in the text `before [@click=action] shown [/] after`, a click on a cell that shows a character that
stands only in the link finds the action as written, and a click on any that stands only outside finds none. -/
theorem link_clicked_partial (wd : Char → Nat) (before action shown after : List Char)
    (ha1 : Markup.Bare Char.isWhitespace action) (ha2 : Markup.Body 0 ("@click=".toList ++ action))
    (hw : ∀ c ∈ before ++ shown ++ after, c ≠ '\n' → wd c = 1)
    (hist : List RenderCache.Sheet) (s : Sheet) (ws : Grapheme → Bool) (hovered : Option String) (title subtitle : Option Strip)
    (w hgt : Nat) (ho : NoOutline s.frame) (htop : s.frame.border.top.kind.horizontal = true ∨ title = none)
    (ht1 : Unlinked title) (ht2 : Unlinked subtitle) :
    ∃ c, fromMarkup (byChar wd) (Markup.escape before ++ ('[' :: ("@click=".toList ++ action) ++ [']']) ++ Markup.escape shown ++
        "[/]".toList ++ Markup.escape after) = .ok c ∧ ∀ lines,
      textLines s ws c hovered ((cacheAfter hist s.frame).innerSize w hgt).1 = some lines → ∀ x y row cell (ch : Char),
      (drawLines s (cacheAfter hist s.frame) lines title subtitle w hgt).rows[y]? = some row → row.cells[x]? = some cell →
      (∃ line ∈ lines, cell ∈ line.strip.cells) → cell.g.text = String.singleton ch → ch ≠ ' ' → ch ≠ '…' →
      (ch ∉ before → ch ∉ after →
        findLink (drawLines s (cacheAfter hist s.frame) lines title subtitle w hgt).links x y = some (String.ofList action)) ∧
      (ch ∉ shown → findLink (drawLines s (cacheAfter hist s.frame) lines title subtitle w hgt).links x y = none) := by
  have hp := oneLink_parse before action shown after ha1 ha2
  obtain ⟨c, hc, key⟩ := click_actions_partial (byChar wd) _ _ hp (byChar_solid wd _) (byChar_aligned wd hp) (by
    intro g hg hn
    obtain ⟨ch, hm, rfl⟩ := List.mem_map.1 hg
    exact hw ch hm (by rintro rfl; exact hn rfl)) hist s ws hovered title subtitle w hgt ho htop ht1 ht2
  refine ⟨c, hc, ?_⟩
  intro lines e x y row cell ch hrow hcell hm hch n1 n2
  obtain ⟨pre, post, k1, k2⟩ := key lines e x y row cell hrow hcell hm (not_named hch (d := ' ') rfl n1)
    (not_named hch (d := '…') rfl n2)
  obtain ⟨p, q, e1, rfl⟩ := byChar_place wd _ pre post cell.g ch hch k1
  rw [k2, blen_byChar]
  exact oneLink_action before action shown after p q ch e1

/-- In a centred card with a round border: wherever the `H` of the link is seen, a click finds `go('=')`. -/
example : ∃ c, fromMarkup (byChar fun _ => 1) "Press [@click=go('=')]HERE[/]!".toList = .ok c ∧ ∀ lines,
    textLines card Content.asciiWs c none ((cacheAfter [] card.frame).innerSize 16 4).1 = some lines → ∀ x y row cell,
    (drawLines card (cacheAfter [] card.frame) lines none none 16 4).rows[y]? = some row → row.cells[x]? = some cell →
    (∃ line ∈ lines, cell ∈ line.strip.cells) → cell.g.text = "H" →
    findLink (drawLines card (cacheAfter [] card.frame) lines none none 16 4).links x y = some "go('=')" := by
  obtain ⟨c, hc, key⟩ := link_clicked_partial (fun _ => 1) "Press ".toList "go('=')".toList "HERE".toList "!".toList
    (by unfold Markup.Bare; decide) (Markup.tagBody_body 0 ("@click=go('=')".toList ++ [']']) _ [] (by decide +kernel)).1
    (fun _ _ _ => rfl) [] card Content.asciiWs none none none 16 4 (by unfold NoOutline; decide) (Or.inr rfl)
    (by rintro t h; cases h) (by rintro t h; cases h)
  exact ⟨c, hc, fun lines h x y row cell h1 h2 h3 h4 => (key lines h x y row cell 'H' h1 h2 h3 h4 (by decide) (by decide)).1 (by decide) (by decide)⟩

/-- It is seen: the `H` of the first line is in a row of the widget. -/
example :
    let c : Content.Content := { text := byChar (fun _ => 1) "Press HERE!".toList, spans := some [⟨6, 10, {}, [("@click", "go('=')")]⟩] }
    fromMarkup (byChar fun _ => 1) "Press [@click=go('=')]HERE[/]!".toList = .ok c ∧
    (textLines card Content.asciiWs c none ((cacheAfter [] card.frame).innerSize 16 4).1).map (fun lines =>
      (lines.map fun l => l.strip.cells.map fun x => x.g.text,
       (drawLines card (cacheAfter [] card.frame) lines none none 16 4).rows.any fun r =>
         r.cells.any fun x => decide (x.g.text = "H" ∧ linkOf x = some "go('=')"))) =
      some ([["P", "r", "e", "s", "s", " ", "H", "E", "R", "E", "!"]], true) := by
  decide +kernel

end Textual.Static
