import Verif.Model.Header
import Verif.Props.Markup
import Verif.Props.Press

/-! C140–C142: headers, and the classes that headers, labels and rulers manage themselves. -/

namespace Textual.Header

open Markup Press Classes

/-! ### C140: the title -/

/-- `Literal src text`: `src` is `text`, perhaps with some of its brackets and backslashes escaped, and all opening
brackets and backslashes are. -/
inductive Literal : List Char → List Char → Prop where
  | nil : Literal [] []
  | char {c : Char} {src text : List Char} (h1 : c ≠ '[') (h2 : c ≠ '\\') : Literal src text →
      Literal (c :: src) (c :: text)
  | esc {c : Char} {src text : List Char} (h : c = '[' ∨ c = ']' ∨ c = '\\') : Literal src text →
      Literal ('\\' :: c :: src) (c :: text)

/-- Texts without opening brackets and backslashes stand for themselves. -/
theorem literal_self : ∀ {s : List Char}, '[' ∉ s → '\\' ∉ s → Literal s s
  | [], _, _ => .nil
  | c :: s, h1, h2 => by
    simp only [List.mem_cons, not_or] at h1 h2
    exact .char (Ne.symm h1.1) (Ne.symm h2.1) (literal_self h1.2 h2.2)

/-- Every text can be written: escape it. -/
theorem literal_escape : ∀ s : List Char, Literal (escape s) s
  | [] => .nil
  | c :: s => by
    show Literal (escapeChar c ++ escape s) (c :: s)
    unfold escapeChar
    split
    · exact .esc ‹_› (literal_escape s)
    · rename_i h
      simp only [not_or] at h
      exact .char h.1 h.2.2 (literal_escape s)

theorem Literal.nil_iff {src text : List Char} (h : Literal src text) : src = [] ↔ text = [] := by
  cases h <;> simp

theorem lexC_literal (ext : Ext) (r : List Char) {src text : List Char} (h : Literal src text) : ∃ ts,
    lexC ext.ws (src ++ r) = (lexC ext.ws r).bind (fun us => .ok (ts ++ us)) ∧
      ∀ p : Parser, p.run ext ts = .ok { p with output := p.output ++ text } := by
  induction h with
  | nil => exact ⟨[], by cases h : lexC ext.ws r <;> simp [Res.bind, h], fun p => by simp [Parser.run]⟩
  | @char c src text h1 h2 _ ih =>
    obtain ⟨ts, e1, e2⟩ := ih
    refine ⟨.text [c] :: ts, ?_, fun p => ?_⟩
    · rw [List.cons_append, lexC_text ext.ws h1 h2, e1]
      cases lexC ext.ws r <;> simp [Res.bind]
    · simp only [Parser.run]
      rw [step_write ext p (Or.inl rfl)]
      simp only [Res.bind]
      rw [e2]
      simp
  | @esc c src text h _ ih =>
    obtain ⟨ts, e1, e2⟩ := ih
    refine ⟨.esc c :: ts, ?_, fun p => ?_⟩
    · rw [List.cons_append, List.cons_append, lexC_esc ext.ws (by simpa using h), e1]
      cases lexC ext.ws r <;> simp [Res.bind]
    · simp only [Parser.run]
      rw [step_write ext p (Or.inr rfl)]
      simp only [Res.bind]
      rw [e2]
      simp

theorem blen_append (a b : List Char) : blen (a ++ b) = blen a + blen b := by simp [blen]

theorem parse_literal (ext : Ext) {src text : List Char} (h : Literal src text) : parse ext src = .ok ⟨text, []⟩ := by
  obtain ⟨ts, e1, e2⟩ := lexC_literal ext [] h
  rw [List.append_nil, lexC_nil] at e1
  rw [parse_eq_lexC, e1]
  simp only [Res.bind, List.append_nil]
  rw [e2]
  rfl

/-- What the environment must know to read `[dim]`: its letters are not white space, and lower case. -/
def KnowsDim (ext : Ext) : Prop :=
  ext.ws 'd' = false ∧ ext.ws 'i' = false ∧ ext.ws 'm' = false ∧ ext.lower "dim".toList = "dim".toList

theorem tag_dim {ext : Ext} (h : KnowsDim ext) :
    Tag.parse ext "dim".toList = .ok (.style { text := { dim := true } }) := by
  obtain ⟨h1, h2, h3, h4⟩ := h
  have hl : "dim".toList = ['d', 'i', 'm'] := rfl
  rw [hl] at h4 ⊢
  have ht : trim ext.ws ['d', 'i', 'm'] = ['d', 'i', 'm'] := by simp [trim, List.dropWhile, h1, h3]
  have hw : words ext.ws ['d', 'i', 'm'] = [['d', 'i', 'm']] := by simp [words, wordsLoop, h1, h2, h3]
  have hs : styleWords ext {} [['d', 'i', 'm']] = .ok { text := { dim := true } } := by
    unfold styleWords
    rw [h4, if_neg (by decide)]
    rfl
  have hp : Style.parse ext ['d', 'i', 'm'] = .ok { text := { dim := true } } := by
    unfold Style.parse
    rw [ht]
    show styleWords ext {} (words ext.ws ['d', 'i', 'm']) = _
    rw [hw]
    exact hs
  unfold Tag.parse
  rw [ht]
  show (Style.parse ext ['d', 'i', 'm']).bind _ = _
  rw [hp]
  rfl

/-- The title and subtitle last given. -/
def TitleOp.told : List Char × Option (List Char) → TitleOp → List Char × Option (List Char)
  | (_, s), .setTitle t => (t, s)
  | (t, _), .setSubtitle s => (t, some s)
  | (t, _), .clearSubtitle => (t, none)

theorem run_told (h : Title) (hc : h.content = formatTitle h.title h.subtitle) (ops : List TitleOp) :
    let h' := h.run ops
    (h'.title, h'.subtitle) = ops.foldl TitleOp.told (h.title, h.subtitle) ∧
    h'.content = formatTitle h'.title h'.subtitle := by
  induction ops generalizing h with
  | nil => exact ⟨rfl, hc⟩
  | cons op ops ih =>
    have := ih (h.step op) (by cases op <;> rfl)
    refine ⟨?_, this.2⟩
    rw [List.foldl_cons, show TitleOp.told (h.title, h.subtitle) op = ((h.step op).title, (h.step op).subtitle) by
      cases op <;> rfl]
    exact this.1

/-- C140: after any calls, a header whose title and subtitle are written literally shows them: without a subtitle the
title alone and plain; with a subtitle the title, a dash and the subtitle, and just the dash and the subtitle
are dim. -/
theorem title_shown_partial (ext : Ext) (hd : KnowsDim ext) (start title : List Char) (subtitle : Option (List Char))
    (ops : List TitleOp) (told : ops.foldl TitleOp.told (start, none) = (title, subtitle))
    (t s : List Char) (ht : Literal title t) (hs : Literal (subtitle.getD []) s) :
    ∃ m, ((Title.new start).run ops).shown ext = .ok m ∧
      m.text = (if s = [] then t else t ++ " — ".toList ++ s) ∧
      ∀ offset < blen m.text, m.metaAt offset = [] ∧
        m.styleAt offset = if offset < blen t + 1 ∨ s = [] then {} else { text := { dim := true } } := by
  obtain ⟨h1, h2⟩ := run_told (Title.new start) rfl ops
  rw [show (Title.new start).subtitle = none from rfl, show (Title.new start).title = start from rfl, told] at h1
  generalize (Title.new start).run ops = h at *
  simp only [Prod.mk.injEq] at h1
  obtain ⟨rfl, rfl⟩ := h1
  unfold Title.shown
  rw [h2]
  by_cases hne : s = []
  · have he : formatTitle h.title h.subtitle = h.title := by
      unfold formatTitle
      cases hsub : h.subtitle with
      | none => rfl
      | some v =>
        rw [hsub, Option.getD_some] at hs
        rw [hs.nil_iff.2 hne]
        rfl
    rw [he, parse_literal ext ht]
    refine ⟨_, rfl, by simp [hne], ?_⟩
    intro offset _
    simp [Parsed.metaAt, Parsed.styleAt, hne]
  · cases hsub : h.subtitle with
    | none => rw [hsub] at hs; exact absurd (hs.nil_iff.1 rfl) hne
    | some v =>
      rw [hsub, Option.getD_some] at hs
      have hv : v ≠ [] := fun e => hne (hs.nil_iff.1 e)
      have he : formatTitle h.title (some v) =
          h.title ++ (' ' :: ('[' :: ("dim".toList ++ ']' :: (('—' :: ' ' :: v) ++
            ('[' :: ('/' :: [] ++ ']' :: [])))))) := by
        unfold formatTitle
        rw [show (some v).filter (fun v => !v.isEmpty) = some v by simp [Option.filter, hv]]
        simp only [List.append_assoc]
        rfl
      have hv' : Literal ('—' :: ' ' :: v) ('—' :: ' ' :: s) := .char (by decide) (by decide) (.char (by decide) (by decide) hs)
      obtain ⟨ts, a1, a2⟩ := lexC_literal ext ('[' :: ('/' :: [] ++ ']' :: [])) hv'
      obtain ⟨us, b1, b2⟩ := lexC_literal ext (' ' :: ('[' :: ("dim".toList ++ ']' :: (('—' :: ' ' :: v) ++
            ('[' :: ('/' :: [] ++ ']' :: [])))))) ht
      rw [lexC_close ext (by simp), lexC_nil] at a1
      have hblen : blen (t ++ [' ']) = blen t + 1 := by rw [blen_append]; rfl
      have hlt : blen t + 1 < blen (t ++ [' '] ++ '—' :: ' ' :: s) := by
        rw [blen_append, hblen]
        have : blen ('—' :: ' ' :: s) = 3 + (1 + blen s) := by
          simp only [blen, List.map_cons, List.sum_cons]
          rfl
        omega
      have hparse : parse ext (formatTitle h.title (some v)) =
          .ok ⟨t ++ [' '] ++ '—' :: ' ' :: s,
            [⟨blen t + 1, blen (t ++ [' '] ++ '—' :: ' ' :: s), { text := { dim := true } }, []⟩]⟩ := by
        rw [he, parse_eq_lexC, b1, lexC_text ext.ws (by decide) (by decide),
          lexC_open ext (by decide) (by decide) (by decide), a1]
        simp only [Res.bind]
        rw [run_append, b2]
        simp only [Res.bind, Parser.run, Parser.step, tag_dim hd]
        rw [run_append, a2]
        have : (trim ext.ws []).isEmpty = true := rfl
        rw [if_pos this]
        have hcr : ∀ q : Parser, q.stack = [⟨{ text := { dim := true } }, [], blen t + 1, "dim".toList⟩] →
            q.output = t ++ [' '] ++ '—' :: ' ' :: s → q.spans = [] →
            q.pop = { stack := [], output := t ++ [' '] ++ '—' :: ' ' :: s, spans :=
              [⟨blen t + 1, blen (t ++ [' '] ++ '—' :: ' ' :: s), { text := { dim := true } }, []⟩] } := by
          intro q q1 q2 q3
          rw [show q.pop = ({ q with stack := [] } : Parser).createSpan
            ⟨{ text := { dim := true } }, [], blen t + 1, "dim".toList⟩ by unfold Parser.pop; rw [q1]]
          unfold Parser.createSpan
          rw [if_pos (by rw [q2]; exact ⟨hlt, rfl⟩)]
          simp [q2, q3]
        simp only [Res.bind, Parser.run, Parser.step]
        rw [hcr _ (by simp [Parser.push, hblen]) (by simp [Parser.push]) rfl]
        rfl
      rw [hparse]
      refine ⟨_, rfl, by simp [hne], ?_⟩
      intro offset ho
      simp only [] at ho
      by_cases hlo : offset < blen t + 1
      · have : ¬ (blen t + 1 ≤ offset) := by omega
        simp [Parsed.metaAt, Parsed.styleAt, Span.contains, this, hlo]
      · have : blen t + 1 ≤ offset := by omega
        simp only [Parsed.metaAt, Parsed.styleAt, List.foldl_cons, List.foldl_nil, Span.contains, this, ho, hlo, hne,
          and_self, decide_true, if_true, or_self, if_false]
        exact ⟨rfl, rfl⟩

example : KnowsDim asciiExt ∧ Literal "Files".toList "Files".toList ∧
    [TitleOp.setSubtitle "old".toList, .clearSubtitle, .setSubtitle "two]".toList].foldl TitleOp.told ("Files".toList, none) =
      ("Files".toList, some "two]".toList) ∧
    ((Title.new "Files".toList).run
      [.setSubtitle "old".toList, .clearSubtitle, .setSubtitle "two]".toList]).shown asciiExt =
      .ok ⟨"Files — two]".toList, [⟨6, 14, { text := { dim := true } }, []⟩]⟩ := by
  refine ⟨by unfold KnowsDim; decide, literal_self (by decide) (by decide), by decide, by decide +kernel⟩

/-- C140 is false for brackets and backslashes. A title in brackets that names a colour is lost ... -/
theorem title_lost_counterexample :
    (Title.new "[red] alert".toList).shown asciiExt = .ok ⟨" alert".toList,
      [⟨0, 6, { fg := some (.named "red".toList) }, []⟩]⟩ := by decide +kernel

/-- ... other brackets, or a backslash, show the markup of the subtitle ... -/
theorem markup_shown_counterexample :
    ((Title.new "Step [1/3]".toList).setSubtitle "x".toList).shown asciiExt =
      .ok ⟨"Step [1/3] [dim]— x[/]".toList, []⟩ ∧
    ((Title.new "C:\\".toList).setSubtitle "x".toList).shown asciiExt =
      .ok ⟨"C:\\ [dim]— x[/]".toList, []⟩ := by decide +kernel

/-- ... and some titles crash the program. -/
theorem title_panic_counterexample : (Title.new "[#abcdé]".toList).shown asciiExt = .panic := by decide +kernel

/-! ### C141: the icon -/

theorem Icon.step_click (r : Region) (b : Icon) (h : Hand) (e : Event) (hpe : b.pending = false)
    (ha : Agrees h b.active b.disabled false) (hl : h.Allows .button r e) :
    Agrees (h.next .button r e) (b.step r e).2.active (b.step r e).2.disabled false ∧
    (b.step r e).2.pending = false ∧ (b.step r e).1 = h.clicks .button r e := by
  obtain ⟨dn, st, hd, hlo⟩ := h
  rcases b with ⟨hv, a, d, p, di⟩
  obtain ⟨rfl, rfl, h3⟩ := ha
  subst hpe
  cases e with
  | mouse e =>
    obtain ⟨k, x, y⟩ := e
    revert hl h3
    generalize hc : r.containsPoint x y = c
    rcases k with _ | (_ | _ | _) | (_ | _ | _) | _ | _ <;> cases c <;> cases hv <;> cases a <;> cases d <;>
      rcases dn with _ | (_ | _) <;> cases st <;>
      simp [Icon.step, Icon.finish, Icon.press, Icon.mouse, Icon.onMouse, Icon.clearHover,
        Icon.setHover, hc, Agrees, Hand.next, Hand.Allows, Hand.clicks, Hand.enabled, Mouse.on, Which.counts]
  | setLoading w => exact ⟨⟨rfl, by simp [Hand.next], h3⟩, rfl, rfl⟩
  | _ => exact ⟨⟨rfl, rfl, h3⟩, rfl, rfl⟩

theorem Icon.run_agrees (r : Region) (b : Icon) (h : Hand) (es : List Event) (hpe : b.pending = false)
    (ha : Agrees h b.active b.disabled false) (hp : h.Proper .button r es) :
    Agrees (h.after .button r es) (b.run r es).2.active (b.run r es).2.disabled false ∧
    (b.run r es).2.pending = false := by
  induction es generalizing b h with
  | nil => exact ⟨ha, hpe⟩
  | cons e es ih =>
    obtain ⟨h1, h2, -⟩ := b.step_click r h e hpe ha hp.1
    exact ih _ _ h2 h1 hp.2

/-- C141 (partial: one mouse button at a time, and after a press begun on the icon was let go elsewhere the next press is
on the icon; see the counterexample). Whatever happened before, an event asks for the command palette just if it
completes a click on the icon. -/
theorem icon_opens_partial (r : Region) (es : List Event) (e : Event)
    (hp : ({} : Hand).Proper .button r (es ++ [e])) :
    ((({} : Icon).run r es).2.step r e).1 = (({} : Hand).after .button r es).clicks .button r e := by
  obtain ⟨h1, h2⟩ := (Hand.proper_append _ _ _ _ _).1 hp
  obtain ⟨ha, hpe⟩ := Icon.run_agrees r {} {} es rfl ⟨rfl, rfl, fun h => by cases h⟩ h1
  exact (Icon.step_click r _ _ _ hpe ha h2.1).2.2

example : let r : Region := ⟨0, 0, 8, 1⟩
    let es : List Event := [.mouse ⟨.moved, 1, 0⟩, .mouse ⟨.down .left, 1, 0⟩, .mouse ⟨.drag .left, 20, 3⟩,
      .mouse ⟨.up .left, 2, 0⟩, .mouse ⟨.down .right, 2, 0⟩, .mouse ⟨.up .right, 2, 0⟩, .key .enter,
      .setDisabled true, .mouse ⟨.down .left, 1, 0⟩, .mouse ⟨.up .left, 1, 0⟩]
    ({} : Hand).Proper .button r es ∧
    (({} : Icon).run r es).1 = [false, false, false, true, false, false, false, false, false, false] := by decide

/-- C141 is false after a press begun on the icon was let go elsewhere: a drag from elsewhere to the icon opens the
palette, even long after. -/
theorem icon_counterexample :
    (({} : Icon).run ⟨0, 0, 8, 1⟩ [.mouse ⟨.down .left, 1, 0⟩, .mouse ⟨.up .left, 20, 5⟩, .mouse ⟨.moved, 30, 5⟩,
      .mouse ⟨.down .left, 30, 5⟩, .mouse ⟨.drag .left, 1, 0⟩, .mouse ⟨.up .left, 1, 0⟩]).1 =
      [false, false, false, false, false, true] := by decide

/-- C141, for every history: the palette is asked for no more often than the icon was pressed while enabled. -/
theorem icon_le_presses (r : Region) (b : Icon) (h : Hand) (es : List Event) (hb : b.pending = false)
    (hd : b.disabled = h.disabled) (hl : h.loading = false) :
    ((b.run r es).1.filter id).length ≤ (if b.active then 1 else 0) + h.pressCount .button r es := by
  induction es generalizing b h with
  | nil => simp [Icon.run]
  | cons e es ih =>
    have hs : (b.step r e).2.pending = false ∧ (b.step r e).2.disabled = (h.next .button r e).disabled ∧
        (h.next .button r e).loading = false ∧
        (if (b.step r e).1 then 1 else 0) + (if (b.step r e).2.active then 1 else 0) ≤
          (if b.active then 1 else 0) + (if h.presses .button r e then 1 else 0) := by
      obtain ⟨dn, st, hd', hlo⟩ := h
      rcases b with ⟨hv, a, d, p, di⟩
      subst hd hl hb
      cases e with
      | mouse e =>
        obtain ⟨k, x, y⟩ := e
        generalize hc : r.containsPoint x y = c
        rcases k with _ | (_ | _ | _) | (_ | _ | _) | _ | _ <;> cases c <;> cases hv <;> cases a <;> cases d <;>
          simp [Icon.step, Icon.finish, Icon.press, Icon.mouse, Icon.onMouse, Icon.clearHover,
            Icon.setHover, hc, Hand.next, Hand.presses, Hand.enabled, Mouse.on, Which.counts]
      | _ => cases a <;> simp [Icon.step, Icon.finish, Hand.next, Hand.presses]
    obtain ⟨s1, s2, s3, s4⟩ := hs
    have hi := ih _ _ s1 s2 s3
    simp only [Icon.run, Hand.pressCount, List.filter_cons, id]
    split
    · rename_i hne
      rw [if_pos hne] at s4
      rw [List.length_cons]
      omega
    · rename_i hne
      rw [if_neg hne] at s4
      omega

example : ((({} : Icon).run ⟨0, 0, 8, 1⟩ [.mouse ⟨.down .left, 1, 0⟩, .mouse ⟨.up .left, 1, 0⟩,
    .mouse ⟨.up .left, 1, 0⟩]).1.filter id).length = 1 := by decide

/-! ### C142: managed classes -/

/-- The class a call names, if it names one. -/
def _root_.Textual.Classes.Op.names : Op → Option String
  | .add c | .remove c | .toggle c | .cond _ c => some c
  | _ => none

theorem count_step (wraps : Bool) (h : Holder) (op : Op) (k : String) (hn : op.names ≠ some k)
    (hset : ∀ cs, op ≠ .set cs) : (Classes.step wraps h op).classes.count k = h.classes.count k := by
  have hpush : ∀ c, c ≠ k → (h.push c).classes.count k = h.classes.count k := by
    intro c hc
    simp [Holder.push, List.count_append, List.count_cons, hc]
  have hadd : ∀ c, c ≠ k → (h.add c).classes.count k = h.classes.count k := by
    intro c hc
    unfold Holder.add
    split
    · rfl
    · simp [List.count_append, List.count_cons, hc]
  have hrem : ∀ c, c ≠ k → (h.remove c).classes.count k = h.classes.count k := by
    intro c hc
    unfold Holder.remove
    split
    · exact List.count_erase_of_ne (Ne.symm hc)
    · rfl
  have hboth : ∀ c, c ≠ k → (if wraps then h.push c else h.add c).classes.count k = h.classes.count k := by
    intro c hc
    split
    · exact hpush c hc
    · exact hadd c hc
  cases op with
  | add c => exact hboth c (fun e => hn (by simp [Classes.Op.names, e]))
  | remove c => exact hrem c (fun e => hn (by simp [Classes.Op.names, e]))
  | toggle c =>
    have hc : c ≠ k := fun e => hn (by simp [Classes.Op.names, e])
    simp only [Classes.step]
    split
    · exact hrem c hc
    · exact hboth c hc
  | cond on c =>
    have hc : c ≠ k := fun e => hn (by simp [Classes.Op.names, e])
    simp only [Classes.step]
    split
    · exact hboth c hc
    · exact hrem c hc
  | set cs => exact absurd rfl (hset cs)
  | clean => rfl

/-- A program that leaves the class `k` to the widget: no call names it, and class lists that replace the old ones
hold it `n` times. -/
def Leaves {α : Type} (k : String) (n : Nat) : LookOp α → Prop
  | .own _ => True
  | .classes (.set cs) | .withClasses cs => cs.count k = n
  | .classes op => op.names ≠ some k

instance {α : Type} (k : String) (n : Nat) : (op : LookOp α) → Decidable (Leaves k n op)
  | .own _ => .isTrue trivial
  | .classes (.set cs) => inferInstanceAs (Decidable (cs.count k = n))
  | .withClasses cs => inferInstanceAs (Decidable (cs.count k = n))
  | .classes (.add c) => inferInstanceAs (Decidable (_ ≠ _))
  | .classes (.remove c) => inferInstanceAs (Decidable (_ ≠ _))
  | .classes (.toggle c) => inferInstanceAs (Decidable (_ ≠ _))
  | .classes (.cond _ c) => inferInstanceAs (Decidable (_ ≠ _))
  | .classes .clean => inferInstanceAs (Decidable (_ ≠ _))

theorem count_classes {α : Type} (wraps : Bool) (h : Holder) (op : Op) {k : String} {n : Nat}
    (hl : Leaves k n (.classes op : LookOp α)) (hn : h.classes.count k = n) :
    (Classes.step wraps h op).classes.count k = n := by
  cases op with
  | set cs => exact hl
  | _ => rw [count_step wraps h _ k hl (by simp)]; exact hn

theorem count_pos {k : String} {n : Nat} {h : Holder} (hn : h.classes.count k = n) : h.has k = true ↔ 0 < n := by
  rw [← hn, List.count_pos_iff, Holder.has, List.any_eq_true]
  exact ⟨fun ⟨x, hx, e⟩ => by rw [← beq_iff_eq.1 e]; exact hx, fun hk => ⟨k, hk, by simp⟩⟩

/-! Headers. -/

/-- Whether the header was last told to be tall. -/
def toldTall (t : Bool) : LookOp Bool → Bool
  | .own v => v
  | _ => t

/-- The program leaves `-tall` to the header; lists that replace all classes hold it just if the header is tall. -/
def LeavesTall (t : Bool) : List (LookOp Bool) → Prop
  | [] => True
  | op :: ops => Leaves "-tall" (if t then 1 else 0) op ∧ LeavesTall (toldTall t op) ops

instance : (t : Bool) → (ops : List (LookOp Bool)) → Decidable (LeavesTall t ops)
  | _, [] => .isTrue trivial
  | t, op :: ops =>
    have : Decidable (LeavesTall (toldTall t op) ops) := instDecidableLeavesTall _ ops
    inferInstanceAs (Decidable (_ ∧ _))

/-- C142 for headers: `is_tall` says what was last told, and the header has the class `-tall` just if it is tall, for
programs that leave the class to the header (see the counterexample). -/
theorem tall_partial (ops : List (LookOp Bool)) (hl : LeavesTall false ops) :
    (Tall.run ops).tall = ops.foldl toldTall false ∧
    ((Tall.run ops).inner.has "-tall" = true ↔ ops.foldl toldTall false = true) := by
  have key : ∀ (h : Tall), h.inner.classes.count "-tall" = (if h.tall then 1 else 0) → LeavesTall h.tall ops →
      (ops.foldl Tall.step h).tall = ops.foldl toldTall h.tall ∧
      (ops.foldl Tall.step h).inner.classes.count "-tall" = if ops.foldl toldTall h.tall then 1 else 0 := by
    clear hl
    induction ops with
    | nil => exact fun h hc _ => ⟨rfl, hc⟩
    | cons op ops ih =>
      intro h hc hl
      have ht : (h.step op).tall = toldTall h.tall op := by
        cases op with
        | own v =>
          simp only [Tall.step, Tall.setTall, toldTall]
          split
          · assumption
          · rfl
        | _ => rfl
      rw [List.foldl_cons, List.foldl_cons, ← ht]
      apply ih
      · cases op with
        | own v =>
          simp only [Tall.step, Tall.setTall]
          split
          · exact hc
          · cases v with
            | false =>
              have htt : h.tall = true := by cases hh : h.tall <;> simp_all
              rw [htt] at hc
              have hin : h.inner.has "-tall" = true := (count_pos hc).2 (by decide)
              simp only [Holder.remove, hin, if_true, Bool.false_eq_true, if_false]
              rw [List.count_erase_self, hc]
              rfl
            | true =>
              have htt : h.tall = false := by cases hh : h.tall <;> simp_all
              rw [htt] at hc
              have hin : ¬ h.inner.has "-tall" = true := fun e => absurd ((count_pos hc).1 e) (by decide)
              simp only [Holder.add, if_true]
              rw [if_neg hin]
              simp only [List.count_append, hc, List.count_singleton]
              rfl
        | classes op => exact count_classes (α := Bool) false h.inner op hl.1 hc
        | withClasses cs => exact hl.1
      · rw [ht]; exact hl.2
  obtain ⟨h1, h2⟩ := key {} rfl hl
  refine ⟨h1, ?_⟩
  rw [Tall.run, count_pos h2]
  cases ops.foldl toldTall false <;> simp

example : let ops : List (LookOp Bool) := [.withClasses ["a", "b"], .own true, .classes (.add "c"), .classes (.remove "a"),
      .own false, .classes (.set ["d"]), .own true]
    LeavesTall false ops ∧ (Tall.run ops).inner.classes = ["d", "-tall"] := by decide

/-- C142 is false for headers if the classes are given after `with_tall(true)`: the header stays low; and `with_tall(true)`
again does not help. -/
theorem tall_counterexample :
    let h := Tall.run [.own true, .withClasses ["a"], .own true]
    h.tall = true ∧ h.inner.has "-tall" = false := by decide

/-! Labels. -/

/-- C142 for labels that get their variant once: the classes that are names of variants are just that of the variant. -/
theorem label_partial (before after : List (LookOp (Option Variant))) (v : Option Variant)
    (h1 : ∀ op ∈ before, (∀ w, op ≠ .own w) ∧ ∀ w : Variant, Leaves (className (some w)) 0 op)
    (h2 : ∀ op ∈ after, (∀ w, op ≠ .own w) ∧ ∀ w : Variant, Leaves (className (some w)) (if v = some w then 1 else 0) op) :
    let l := Label.run (before ++ .own v :: after)
    l.variant = some v ∧ ∀ w : Variant, l.inner.has (className (some w)) = true ↔ v = some w := by
  have key : ∀ (n : Variant → Nat) (ops : List (LookOp (Option Variant))) (l : Label),
      (∀ op ∈ ops, (∀ w, op ≠ .own w) ∧ ∀ w : Variant, Leaves (className (some w)) (n w) op) →
      (∀ w, l.inner.classes.count (className (some w)) = n w) →
      (ops.foldl Label.step l).variant = l.variant ∧
      ∀ w, (ops.foldl Label.step l).inner.classes.count (className (some w)) = n w := by
    intro n ops
    induction ops with
    | nil => exact fun l _ hc => ⟨rfl, hc⟩
    | cons op ops ih =>
      intro l hl hc
      obtain ⟨ho, hL⟩ := hl op (by simp)
      have hv : (l.step op).variant = l.variant := by
        cases op with
        | own w => exact absurd rfl (ho w)
        | _ => rfl
      rw [List.foldl_cons, ← hv]
      refine ih _ (fun o ho => hl o (by simp [ho])) ?_
      intro w
      cases op with
      | own w => exact absurd rfl (ho w)
      | classes op => exact count_classes (α := Option Variant) true l.inner op (hL w) (hc w)
      | withClasses cs => exact hL w
  rw [Label.run, List.foldl_append, List.foldl_cons]
  obtain ⟨-, b⟩ := key (fun _ => 0) before {} h1 (fun w => rfl)
  generalize before.foldl Label.step {} = l at b
  obtain ⟨c1, c2⟩ := key (fun w => if v = some w then 1 else 0) after (l.step (.own v)) h2 (by
    intro w
    simp only [Label.step, Label.withVariant]
    cases v with
    | none => exact b w
    | some v =>
      have hne : className (some v) ≠ "" := by cases v <;> decide
      rw [if_neg hne]
      simp only [Holder.push, List.count_append, b w, List.count_singleton]
      cases v <;> cases w <;> decide)
  refine ⟨c1, fun w => ?_⟩
  rw [count_pos (c2 w)]
  split <;> simp [*]

example : let before : List (LookOp (Option Variant)) := [.withClasses ["bold"]]
    let after : List (LookOp (Option Variant)) := [.classes (.add "wide"), .classes (.toggle "bold")]
    (∀ op ∈ before, (∀ w, op ≠ .own w) ∧ ∀ w : Variant, Leaves (className (some w)) 0 op) ∧
    (∀ op ∈ after, (∀ w, op ≠ .own w) ∧ ∀ w : Variant, Leaves (className (some w)) (if some Variant.error = some w then 1 else 0) op) ∧
    (Label.run (before ++ .own (some .error) :: after)).inner.classes = ["error", "wide"] := by
  refine ⟨?_, ?_, by decide⟩
  · intro op ho
    simp only [List.mem_singleton] at ho
    subst ho
    exact ⟨by simp, fun w => by cases w <;> decide⟩
  · intro op ho
    simp only [List.mem_cons, List.not_mem_nil, or_false] at ho
    rcases ho with rfl | rfl <;> exact ⟨by simp, fun w => by cases w <;> decide⟩

/-- C142 is false for labels told a second variant, which keep the class of the first, and for those given their
classes after the variant, which lose it. -/
theorem label_counterexample :
    (Label.run [.own (some .error), .own (some .success)]).inner.classes = ["error", "success"] ∧
    (Label.run [.own (some .error), .withClasses ["bold"]]).inner.classes = ["bold"] ∧
    (Label.run [.own (some .error), .withClasses ["bold"]]).variant = some (some .error) := by decide

/-! Rulers. -/

/-- A call that may take the class `k` away. -/
def Takes (k : String) : LookOp Empty → Prop
  | .classes (.remove c) | .classes (.toggle c) | .classes (.cond false c) => c = k
  | _ => False

/-- C142 for rulers: a ruler always has the class of its orientation, whatever classes it is given, if the program
does not take it away. -/
theorem ruler_partial (vertical : Bool) (ops : List (LookOp Empty))
    (h : ∀ op ∈ ops, ¬ Takes (if vertical then "-vertical" else "-horizontal") op) :
    (Ruler.run vertical ops).vertical = vertical ∧
    (Ruler.run vertical ops).inner.has (if vertical then "-vertical" else "-horizontal") = true := by
  rw [show (if vertical then "-vertical" else "-horizontal") = Ruler.className vertical from rfl] at h ⊢
  have hadd : ∀ (h : Holder) (c k : String), h.has k = true → (h.add c).has k = true := by
    intro h c k hk
    unfold Holder.add
    split
    · exact hk
    · simp only [Holder.has, List.any_append, Bool.or_eq_true]
      exact Or.inl hk
  have hrem : ∀ (h : Holder) (c k : String), c ≠ k → h.has k = true → (h.remove c).has k = true := by
    intro h c k hc hk
    unfold Holder.remove
    split
    · simp only [Holder.has, List.any_eq_true, beq_iff_eq, exists_eq_right] at hk ⊢
      exact (List.mem_erase_of_ne (Ne.symm hc)).2 hk
    · exact hk
  have key : ∀ u : Ruler, u.vertical = vertical → u.inner.has (Ruler.className vertical) = true →
      (ops.foldl Ruler.call u).vertical = vertical ∧
      (ops.foldl Ruler.call u).inner.has (Ruler.className vertical) = true := by
    induction ops with
    | nil => exact fun u h1 h2 => ⟨h1, h2⟩
    | cons op ops ih =>
      intro u h1 h2
      have ho := h op (by simp)
      rw [List.foldl_cons]
      apply ih (fun o ho => h o (by simp [ho]))
      · cases op with
        | own v => exact nomatch v
        | withClasses cs => exact h1
        | classes op => cases op <;> exact h1
      · cases op with
        | own v => exact nomatch v
        | withClasses cs => simp [Ruler.call, Ruler.withClasses, Holder.has, h1]
        | classes op =>
          cases op with
          | add c => exact hadd _ _ _ h2
          | remove c => exact hrem _ _ _ ho h2
          | toggle c =>
            simp only [Ruler.call, Ruler.step, Classes.step]
            split
            · exact hrem _ _ _ ho h2
            · exact hadd _ _ _ h2
          | cond on c =>
            cases on with
            | true => exact hadd _ _ _ h2
            | false => exact hrem _ _ _ ho h2
          | set cs => simp [Ruler.call, Ruler.step, Holder.has, h1]
          | clean => exact h2
  exact key _ rfl (by simp [Ruler.new, Holder.has])

example : (∀ op ∈ ([.withClasses ["a"], .classes (.set ["b", "c"]), .classes (.toggle "b")] : List (LookOp Empty)),
      ¬ Takes "-vertical" op) ∧
    (Ruler.run true [.withClasses ["a"], .classes (.set ["b", "c"]), .classes (.toggle "b")]).inner.classes =
      ["-vertical", "c"] := by
  refine ⟨?_, by decide⟩
  intro op ho
  simp only [List.mem_cons, List.not_mem_nil, or_false] at ho
  rcases ho with rfl | rfl | rfl <;> simp [Takes]

/-- C142 is false for a ruler whose class is taken away: it still draws itself vertically, but is not docked. -/
theorem ruler_counterexample :
    let u := Ruler.run true [.classes (.remove "-vertical")]
    u.vertical = true ∧ u.inner.has "-vertical" = false := by decide

end Textual.Header
