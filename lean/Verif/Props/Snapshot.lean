import Verif.Model.Snapshot
import Verif.Props.FlushWide
import Mathlib.Data.List.SplitOn
import Mathlib.Tactic.Common

/-!
C193: a text drawn on a canvas is found in the text snapshot of the canvas, at its row and column.
-/

namespace Textual.Snapshot
open Canvas

/-! ### Specification -/

/-- The lines of a text. -/
def textLines (s : List Char) : List (List Char) := s.splitOn '\n'

/-- Text `t` stands in `line` from character `x` on. -/
def StandsAt (t line : List Char) (x : Nat) : Prop := (line.drop x).take t.length = t

/-- A grapheme of one character that is no line end. -/
def Single (g : Grapheme) : Prop := ∃ ch, g.text.toList = [ch] ∧ ch ≠ '\n'

/-- A drawing call with graphemes of one character only. -/
def Draw.Single : Draw → Prop
  | .char _ _ g _ _ _ => Snapshot.Single g
  | .str _ _ s _ _ _ => ∀ g ∈ s, Snapshot.Single g
  | .strip _ _ s => ∀ seg ∈ s, ∀ g ∈ seg.text, Snapshot.Single g
  | .strips _ _ s => ∀ l ∈ s, ∀ seg ∈ l, ∀ g ∈ seg.text, Snapshot.Single g

/-- A history of calls. -/
def runOps (c : Canvas) : List Op → Option Canvas
  | [] => some c
  | op :: ops => (c.step op).bind fun c => runOps c ops

/-! ### Every cell reads as one character -/

/-- Every cell reads as one character that is no line end. -/
def OneChar (cells : List Cell) : Prop := ∀ d ∈ cells, ∃ ch, cellText d = [ch] ∧ ch ≠ '\n'

theorem lead_one {g : Grapheme} (hg : Single g) {fg bg a old} (ho : ∃ ch, cellText old = [ch] ∧ ch ≠ '\n') :
    ∃ ch, cellText (leadCell g fg bg a old) = [ch] ∧ ch ≠ '\n' := by
  unfold leadCell
  simp only
  split
  · split
    · exact ho
    · exact ho
  · obtain ⟨ch, h1, h2⟩ := hg
    exact ⟨ch, h1, h2⟩

theorem cont_one {g : Grapheme} {fg bg a old} (ho : ∃ ch, cellText old = [ch] ∧ ch ≠ '\n') :
    ∃ ch, cellText (contCell g fg bg a old) = [ch] ∧ ch ≠ '\n' := by
  unfold contCell
  simp only
  split
  · split
    · exact ho
    · exact ho
  · exact ⟨' ', rfl, by decide⟩

theorem update_one {cells cells' : List Cell} {i : Nat} {f : Cell → Cell} (h : OneChar cells)
    (hf : ∀ old, (∃ ch, cellText old = [ch] ∧ ch ≠ '\n') → ∃ ch, cellText (f old) = [ch] ∧ ch ≠ '\n')
    (hu : updateCell cells i f = some cells') : OneChar cells' := by
  unfold updateCell at hu
  split at hu
  · cases hu
  · rename_i old ho
    cases hu
    intro d hd
    rcases List.mem_or_eq_of_mem_set hd with hm | hm
    · exact h d hm
    · subst hm
      exact hf old (h old (List.mem_of_getElem? ho))

theorem putConts_one {w h : Nat} {x y : Int} {g fg bg attrs} {clip : Region} (offs : List Nat)
    {cells cells' : List Cell} (ho : OneChar cells)
    (hp : putConts w h x y g fg bg attrs clip offs cells = some cells') : OneChar cells' := by
  induction offs generalizing cells with
  | nil => cases hp; exact ho
  | cons off rest ih =>
    simp only [putConts] at hp
    split at hp
    · exact ih ho hp
    split at hp
    · exact ih ho hp
    split at hp
    · cases hp
    · rename_i cs hu
      exact ih (update_one ho (fun _ => cont_one) hu) hp

theorem putGrapheme_one {c c' : Canvas} {x y g fg bg attrs clip} (ho : OneChar c.cells) (hg : Single g)
    (hp : putGrapheme c x y g fg bg attrs clip = some c') : OneChar c'.cells := by
  unfold putGrapheme at hp
  repeat (split at hp; · cases hp; exact ho)
  split at hp
  · cases hp
  rename_i cs hu
  split at hp
  · cases hp
  rename_i cs' hu'
  cases hp
  exact putConts_one _ (update_one ho (fun _ => lead_one hg) hu) hu'

theorem putGraphemes_one {c c' : Canvas} {x y fg bg attrs clip} {s : List Grapheme}
    (ho : OneChar c.cells) (hg : ∀ g ∈ s, Single g)
    (hp : putGraphemes c x y fg bg attrs clip s = some c') : OneChar c'.cells := by
  induction s generalizing c x with
  | nil => cases hp; exact ho
  | cons g gs ih =>
    unfold putGraphemes at hp
    split at hp
    · cases hp; exact ho
    · split at hp
      · cases hp
      · rename_i c1 h1
        exact ih (putGrapheme_one ho (hg g List.mem_cons_self) h1)
          (fun q hq => hg q (List.mem_cons_of_mem _ hq)) hp

theorem putStr_one {c c' : Canvas} {x y fg bg attrs} {s : List Grapheme}
    (ho : OneChar c.cells) (hg : ∀ g ∈ s, Single g)
    (hp : putStr c x y s fg bg attrs = some c') : OneChar c'.cells := by
  unfold putStr at hp
  simp only at hp
  split at hp
  · cases hp; exact ho
  split at hp
  · cases hp; exact ho
  exact putGraphemes_one ho hg hp

theorem renderStrip_one {c c' : Canvas} {x y} {s : List DrawSeg}
    (ho : OneChar c.cells) (hg : ∀ seg ∈ s, ∀ g ∈ seg.text, Single g)
    (hp : renderStrip c x y s = some c') : OneChar c'.cells := by
  induction s generalizing c x with
  | nil => cases hp; exact ho
  | cons g gs ih =>
    unfold renderStrip at hp
    split at hp
    · cases hp
    · rename_i c1 h1
      exact ih (putStr_one ho (hg g List.mem_cons_self) h1)
        (fun q hq => hg q (List.mem_cons_of_mem _ hq)) hp

theorem draw_one {c c' : Canvas} {d : Draw} (ho : OneChar c.cells) (hg : Draw.Single d)
    (hp : c.draw d = some c') : OneChar c'.cells := by
  cases d with
  | char x y g fg bg a => exact putGrapheme_one ho hg hp
  | str x y s fg bg a => exact putStr_one ho hg hp
  | strip x y s => exact renderStrip_one ho hg hp
  | strips x y s =>
    simp only [draw] at hp
    simp only [Draw.Single] at hg
    induction s generalizing c y with
    | nil => cases hp; exact ho
    | cons g gs ih =>
      unfold renderStrips at hp
      split at hp
      · cases hp
      · rename_i c1 h1
        exact ih (renderStrip_one ho (hg g List.mem_cons_self) h1) (y + 1)
          (fun q hq => hg q (List.mem_cons_of_mem _ hq)) hp

theorem step_one {c c' : Canvas} {op : Op} (ho : OneChar c.cells) (hop : OneChar c.prev)
    (hl : c.cells.length = c.w * c.h) (hg : ∀ d, op = .draw d → Draw.Single d)
    (hp : c.step op = some c') : OneChar c'.cells ∧ OneChar c'.prev := by
  cases op with
  | push r => cases hp; exact ⟨ho, hop⟩
  | pop => cases hp; exact ⟨ho, hop⟩
  | draw d =>
    refine ⟨draw_one ho (hg d rfl) hp, ?_⟩
    obtain ⟨c1, h1, o⟩ := draw_spec c hl d
    rw [show c.step (.draw d) = c.draw d from rfl, h1] at hp
    cases hp
    rw [o.prev]; exact hop
  | clear =>
    cases hp
    refine ⟨?_, hop⟩
    intro d hd
    simp only [clear, List.mem_map] at hd
    obtain ⟨_, _, rfl⟩ := hd
    exact ⟨' ', rfl, by decide⟩
  | invalidate => cases hp; exact ⟨ho, hop⟩
  | flush => cases hp; exact ⟨hop, ho⟩

/-- After any history of calls with one-character graphemes every cell reads as one character. -/
theorem runOps_one {w h : Nat} {c0 c : Canvas} (h0 : Canvas.new w h = some c0) (ops : List Op)
    (hops : ∀ d, Op.draw d ∈ ops → Draw.Single d) (hs : runOps c0 ops = some c) :
    OneChar c.cells ∧ c.w = w ∧ c.h = h ∧ c.cells.length = w * h := by
  have hblank : OneChar (List.replicate (w * h) Cell.blank) := by
    intro d hd
    rw [List.eq_of_mem_replicate hd]
    exact ⟨' ', rfl, by decide⟩
  have hn0 : OneChar c0.cells ∧ OneChar c0.prev := by
    unfold Canvas.new at h0
    split at h0
    · cases h0; exact ⟨hblank, hblank⟩
    · cases h0
  have gen : ∀ (ops : List Op) (c1 : Canvas) (raw : List Region), Inv w h raw c1 → OneChar c1.cells →
      OneChar c1.prev → (∀ d, Op.draw d ∈ ops → Draw.Single d) → runOps c1 ops = some c →
      OneChar c.cells ∧ c.w = w ∧ c.h = h ∧ c.cells.length = w * h := by
    intro ops
    induction ops with
    | nil =>
      intro c1 raw i a1 a2 _ hs
      cases hs
      exact ⟨a1, i.weq, i.heq, i.len⟩
    | cons op ops ih =>
      intro c1 raw i a1 a2 hops hs
      obtain ⟨c2, hstep, i2⟩ := i.step op
      obtain ⟨b1, b2⟩ := step_one a1 a2 (by rw [i.len, i.weq, i.heq])
        (fun d hd => hops d (by rw [hd]; exact List.mem_cons_self)) hstep
      simp only [runOps, hstep, Option.bind_some] at hs
      exact ih c2 _ i2 b1 b2 (fun d hd => hops d (List.mem_cons_of_mem _ hd)) hs
  exact gen ops c0 [] (Inv.new h0) hn0.1 hn0.2 hops hs

/-! ### Reading a row -/

/-- The character a one-character cell reads as. -/
def cellChar (d : Cell) : Char := (cellText d).head?.getD '\x00'

theorem flatMap_one {cells : List Cell} (ho : OneChar cells) : cells.flatMap cellText = cells.map cellChar := by
  induction cells with
  | nil => rfl
  | cons d ds ih =>
    obtain ⟨ch, h1, -⟩ := ho d List.mem_cons_self
    rw [List.flatMap_cons, List.map_cons, ih (fun q hq => ho q (List.mem_cons_of_mem _ hq))]
    simp [cellChar, h1]

theorem rowStr_one {c : Canvas} (ho : OneChar c.cells) (y : Nat) (hy : y < c.h) :
    rowStr c y = ((c.cells.drop (y * c.w)).take c.w).map cellChar := by
  unfold rowStr
  rw [if_neg (by omega)]
  simp only [Int.toNat_natCast]
  exact flatMap_one (fun d hd => ho d (List.mem_of_mem_drop (List.mem_of_mem_take hd)))

theorem rowStr_get {c : Canvas} (ho : OneChar c.cells) (y : Nat) (hy : y < c.h) (x : Nat) :
    (rowStr c y)[x]? = if x < c.w then (c.cells[y * c.w + x]?).map cellChar else none := by
  rw [rowStr_one ho y hy, List.getElem?_map, List.getElem?_take]
  split
  · rw [List.getElem?_drop]
  · rfl

theorem rowStr_length {c : Canvas} (hl : c.cells.length = c.w * c.h) (ho : OneChar c.cells) (y : Nat) (hy : y < c.h) :
    (rowStr c y).length = c.w := by
  rw [rowStr_one ho y hy, List.length_map, List.length_take, List.length_drop, hl]
  have : (y + 1) * c.w ≤ c.h * c.w := Nat.mul_le_mul_right _ hy
  rw [Nat.add_mul, Nat.mul_comm c.h] at this
  omega

/-! ### Drawing a text -/

/-- How the graphemes of a text read: each followed by a blank for every further column. -/
def reads (s : List Grapheme) : List Char := s.flatMap fun g => g.text.toList ++ List.replicate (g.width - 1) ' '

theorem reads_length {s : List Grapheme} (hs : ∀ g ∈ s, 1 ≤ g.width ∧ Single g) : (reads s).length = widthOf s := by
  induction s with
  | nil => rfl
  | cons g gs ih =>
    obtain ⟨h1, ch, h2, -⟩ := hs g List.mem_cons_self
    have e : widthOf (g :: gs) = g.width + widthOf gs := by simp [widthOf]
    have := ih (fun q hq => hs q (List.mem_cons_of_mem _ hq))
    unfold reads at *
    rw [List.flatMap_cons, List.length_append, this, e, List.length_append, h2, List.length_replicate]
    simp only [List.length_cons, List.length_nil]
    omega

theorem putGraphemes_reads {y : Nat} {fg : Option Rgb} {bg : Option RgbaColor} {a : Attrs} (s : List Grapheme) :
    ∀ (c : Canvas) (x : Nat), c.cells.length = c.w * c.h →
    (∀ g ∈ s, 1 ≤ g.width ∧ Single g ∧ preserveText g fg bg a = false) →
    c.currentClip.y ≤ y → (y : Int) < c.currentClip.y + c.currentClip.height → y < c.h →
    c.currentClip.x ≤ x → (x : Int) + widthOf s ≤ c.currentClip.x + c.currentClip.width → x + widthOf s ≤ c.w →
    ∃ c', putGraphemes c x y fg bg a c.currentClip s = some c' ∧ c'.w = c.w ∧ c'.h = c.h ∧
      c'.cells.length = c.cells.length ∧
      (∀ k < widthOf s, ∃ d old, c'.cells[y * c.w + x + k]? = some d ∧ c.cells[y * c.w + x + k]? = some old ∧
        (reads s)[k]? = some (cellChar d) ∧ d.fg = fg ∧ d.bg = resolveBackground bg old.bg ∧ d.attrs = a) ∧
      ∀ j, ¬ (y * c.w + x ≤ j ∧ j < y * c.w + x + widthOf s) → c'.cells[j]? = c.cells[j]? := by
  induction s with
  | nil =>
    intro c x hl _ _ _ _ _ _ _
    exact ⟨c, rfl, rfl, rfl, rfl, fun k hk => by simp [widthOf] at hk, fun _ _ => rfl⟩
  | cons g gs ih =>
    intro c x hl hs hy1 hy2 hy3 hx1 hx2 hx3
    have e : widthOf (g :: gs) = g.width + widthOf gs := by simp [widthOf]
    rw [e] at hx2 hx3
    obtain ⟨g1, ⟨ch, g2, g3⟩, g4⟩ := hs g List.mem_cons_self
    obtain ⟨cs, r1, r2, r3, r4, r5⟩ := Put.run_visible (c := c) (p := ⟨x, y, g, fg, bg, a⟩) hl g1
      ⟨hy1, hy2, by simp only; omega, by simp only; omega, hx1, by simp only; omega, by simp only; omega,
        by simp only; omega⟩
    have hst : Put.start c ⟨x, y, g, fg, bg, a⟩ = y * c.w + x := by simp [Put.start]
    rw [hst] at r3 r4 r5
    simp only [Put.run] at r1
    simp only at r3 r4 r5
    obtain ⟨c2, q1, q2, q3, q4, q5, q6⟩ := ih { c with cells := cs } (x + g.width) (by rw [← hl, ← r2])
      (fun q hq => hs q (List.mem_cons_of_mem _ hq)) hy1 hy2 hy3
      (by show c.currentClip.x ≤ _; omega) (by show _ ≤ c.currentClip.x + c.currentClip.width; omega)
      (by show _ ≤ c.w; omega)
    have hlen : y * c.w + x + (g.width + widthOf gs) ≤ c.cells.length := by
      have := index_lt (w := c.w) (h := c.h) (x := x + (g.width + widthOf gs) - 1) (y := y) (by omega) hy3
      omega
    refine ⟨c2, ?_, q2, q3, q4.trans r2, ?_, ?_⟩
    · unfold putGraphemes
      rw [if_neg (by omega), r1]
      simp only
      rw [show ((x : Int) + (g.width : Int)) = ((x + g.width : Nat) : Int) by omega]
      exact q1
    · intro k hk
      rw [e] at hk
      have hr : reads (g :: gs) = (ch :: List.replicate (g.width - 1) ' ') ++ reads gs := by
        simp [reads, g2]
      have hrl : (ch :: List.replicate (g.width - 1) ' ').length = g.width := by simp; omega
      obtain ⟨old, hold⟩ : ∃ old, c.cells[y * c.w + x + k]? = some old :=
        ⟨_, List.getElem?_eq_getElem (by omega)⟩
      by_cases hkg : k < g.width
      · have hsame := q6 (y * c.w + x + k) (by show ¬ (y * c.w + (x + g.width) ≤ _ ∧ _); omega)
        rw [hsame]
        rw [hr, List.getElem?_append_left (by omega)]
        by_cases hk0 : k = 0
        · subst hk0
          rw [Nat.add_zero] at hold ⊢
          refine ⟨leadCell g fg bg a old, old, by show cs[_]? = _; rw [r3, hold]; rfl, hold, ?_⟩
          unfold leadCell
          simp only [g4]
          refine ⟨?_, rfl, rfl, rfl⟩
          simp [cellChar, cellText, g2]
        · refine ⟨contCell g fg bg a old, old, by show cs[_]? = _; rw [r4 k (by omega) hkg, hold]; rfl, hold, ?_⟩
          unfold contCell
          simp only [g4]
          refine ⟨?_, rfl, rfl, rfl⟩
          obtain ⟨k', rfl⟩ : ∃ k', k = k' + 1 := ⟨k - 1, by omega⟩
          rw [List.getElem?_cons_succ, List.getElem?_replicate, if_pos (by omega)]
          rfl
      · obtain ⟨d, old', h1, h2, h3, h4⟩ := q5 (k - g.width) (by omega)
        have hidx : y * c.w + (x + g.width) + (k - g.width) = y * c.w + x + k := by omega
        simp only [hidx] at h1 h2
        have h2' : cs[y * c.w + x + k]? = some old' := h2
        rw [r5 _ (by omega)] at h2'
        refine ⟨d, old', h1, h2', ?_, h4⟩
        rw [hr, List.getElem?_append_right (by omega), hrl]
        exact h3
    · intro j hj
      rw [e] at hj
      rw [q6 j (by show ¬ (y * c.w + (x + g.width) ≤ _ ∧ _ < y * c.w + (x + g.width) + _); omega)]
      exact r5 j (by omega)

/-- Inside the clip and the canvas. -/
structure Fits (c : Canvas) (x y n : Nat) : Prop where
  top : c.currentClip.y ≤ y
  bottom : (y : Int) < c.currentClip.y + c.currentClip.height
  row : y < c.h
  left : c.currentClip.x ≤ x
  right : (x : Int) + n ≤ c.currentClip.x + c.currentClip.width
  column : x + n ≤ c.w

theorem putStr_reads {c : Canvas} (hl : c.cells.length = c.w * c.h) {x y : Nat} {s : List Grapheme}
    {fg bg : Option RgbaColor} {a : Attrs} (hf : Fits c x y (widthOf s))
    (hs : ∀ g ∈ s, 1 ≤ g.width ∧ Single g ∧ preserveText g (fg.map toCrosstermColor) bg a = false) :
    ∃ c', c.putStr x y s fg bg a = some c' ∧ c'.w = c.w ∧ c'.h = c.h ∧ c'.cells.length = c.cells.length ∧
      ∀ k < widthOf s, ∃ d old, c'.cells[y * c.w + x + k]? = some d ∧ c.cells[y * c.w + x + k]? = some old ∧
        (reads s)[k]? = some (cellChar d) ∧ d.fg = fg.map toCrosstermColor ∧
        d.bg = resolveBackground bg old.bg ∧ d.attrs = a := by
  obtain ⟨c', h1, h2, h3, h4, h5, -⟩ := putGraphemes_reads (fg := fg.map toCrosstermColor) (bg := bg) (a := a) s c x hl hs
    hf.top hf.bottom hf.row hf.left hf.right hf.column
  refine ⟨c', ?_, h2, h3, h4, h5⟩
  unfold putStr
  have := hf.top
  have := hf.bottom
  have := hf.row
  simp only
  rw [if_neg (by omega), if_neg (by omega)]
  exact h1

/-! ### The snapshot -/

theorem trimEnd_append {ws : Char → Bool} (a b : List Char) {ch : Char} (h : ws ch = false) :
    trimEnd ws (a ++ ch :: b) = a ++ ch :: trimEnd ws b := by
  unfold trimEnd
  rw [List.reverse_append, List.reverse_cons, List.append_assoc, List.dropWhile_append]
  split
  · rename_i he
    rw [List.isEmpty_iff] at he
    rw [he]
    simp [h]
  · simp

theorem trimEnd_sub {ws : Char → Bool} {s : List Char} {ch : Char} (h : ch ∈ trimEnd ws s) : ch ∈ s := by
  unfold trimEnd at h
  rw [List.mem_reverse] at h
  exact List.mem_reverse.1 ((List.dropWhile_sublist _).subset h)

/-- The lines of a snapshot are the rows without the white space at their ends. -/
theorem snapshot_lines {ws : Char → Bool} {c : Canvas} (hh : 0 < c.h) (ho : OneChar c.cells) :
    textLines (snapshot ws c) = (List.range c.h).map fun (y : Nat) => trimEnd ws (rowStr c y) := by
  unfold textLines snapshot
  apply List.splitOn_intercalate
  · intro l hl
    simp only [List.mem_map, List.mem_range] at hl
    obtain ⟨y, hy, rfl⟩ := hl
    intro hm
    have := trimEnd_sub hm
    rw [rowStr_one ho y hy, List.mem_map] at this
    obtain ⟨d, hd, e⟩ := this
    obtain ⟨ch, h1, h2⟩ := ho d (List.mem_of_mem_drop (List.mem_of_mem_take hd))
    apply h2
    simp only [cellChar, h1] at e
    exact e
  · intro h
    have := congrArg List.length h
    simp at this
    omega

theorem standsAt_trim {ws : Char → Bool} {t line : List Char} {x : Nat} (h : StandsAt t line x)
    (hx : x ≤ line.length) {ch : Char} (hl : t.getLast? = some ch) (hw : ws ch = false) :
    StandsAt t (trimEnd ws line) x := by
  unfold StandsAt at *
  obtain ⟨t', rfl⟩ : ∃ t', t = t' ++ [ch] := by
    rw [List.getLast?_eq_some_iff] at hl
    exact hl
  have e : line = (line.take x ++ t') ++ ch :: (line.drop x).drop (t' ++ [ch]).length := by
    conv => lhs; rw [← List.take_append_drop x line]
    conv => lhs; rw [← List.take_append_drop (t' ++ [ch]).length (line.drop x), h]
    simp
  rw [e, trimEnd_append _ _ hw]
  rw [List.append_assoc, List.drop_left' (by rw [List.length_take]; omega)]
  rw [show t' ++ ch :: trimEnd ws ((line.drop x).drop (t' ++ [ch]).length) =
    (t' ++ [ch]) ++ trimEnd ws ((line.drop x).drop (t' ++ [ch]).length) by simp]
  exact List.take_left' rfl

/-- C193: start from a new canvas and make any history of calls with graphemes of one character. Then
draw a text inside the clip that ends in something visible. Line `y` of the snapshot has the text from
character `x` on, each grapheme followed by a blank for every further column it takes. (Missing from the
property: wide graphemes read with blanks between them, see `wide_counterexample`; a grapheme of several
characters shifts the columns behind it, see `cluster_counterexample`.) -/
theorem drawn_found_partial {ws : Char → Bool} {w h : Nat} {c0 c : Canvas} (h0 : Canvas.new w h = some c0)
    (ops : List Op) (hops : ∀ d, Op.draw d ∈ ops → Draw.Single d) (hr : runOps c0 ops = some c)
    {x y : Nat} {s : List Grapheme} {fg bg : Option RgbaColor} {a : Attrs} (hf : Fits c x y (widthOf s))
    (hs : ∀ g ∈ s, 1 ≤ g.width ∧ Single g ∧ preserveText g (fg.map toCrosstermColor) bg a = false)
    {ch : Char} (hlast : (reads s).getLast? = some ch) (hw : ws ch = false) :
    ∃ c' line, c.putStr x y s fg bg a = some c' ∧ (textLines (snapshot ws c'))[y]? = some line ∧
      (textLines (snapshot ws c')).length = h ∧ StandsAt (reads s) line x := by
  obtain ⟨o, ew, eh, el⟩ := runOps_one h0 ops hops hr
  have hl : c.cells.length = c.w * c.h := by rw [el, ew, eh]
  obtain ⟨c', p1, p2, p3, p4, p5⟩ := putStr_reads hl hf hs
  have o' : OneChar c'.cells := putStr_one o (fun g hg => (hs g hg).2.1) p1
  have hl' : c'.cells.length = c'.w * c'.h := by rw [p4, hl, p2, p3]
  have hrow : y < c'.h := by rw [p3]; exact hf.row
  refine ⟨c', trimEnd ws (rowStr c' y), p1, ?_, ?_, ?_⟩
  · rw [snapshot_lines (by omega) o', List.getElem?_map, List.getElem?_range hrow]
    rfl
  · rw [snapshot_lines (by omega) o', List.length_map, List.length_range, p3, eh]
  · refine standsAt_trim ?_ ?_ hlast hw
    · unfold StandsAt
      rw [reads_length (fun g hg => ⟨(hs g hg).1, (hs g hg).2.1⟩)]
      apply List.ext_getElem?
      intro k
      rw [List.getElem?_take]
      by_cases hk : k < widthOf s
      · rw [if_pos hk, List.getElem?_drop, rowStr_get o' y hrow, if_pos (by have := hf.column; omega)]
        obtain ⟨d, old, h1, -, h3, -⟩ := p5 k hk
        rw [p2, ← Nat.add_assoc, h1, h3]
        rfl
      · rw [if_neg hk]
        symm
        rw [List.getElem?_eq_none]
        rw [reads_length (fun g hg => ⟨(hs g hg).1, (hs g hg).2.1⟩)]
        omega
    · rw [rowStr_length hl' o' y hrow, p2]
      have := hf.column
      omega

/-- For a text of narrow graphemes what is found is the text itself. -/
theorem narrow_reads {s : List Grapheme} (hn : ∀ g ∈ s, g.width = 1) : reads s = s.flatMap (·.text.toList) := by
  unfold reads
  induction s with
  | nil => rfl
  | cons g gs ih =>
    rw [List.flatMap_cons, List.flatMap_cons, ih (fun q hq => hn q (List.mem_cons_of_mem _ hq)),
      hn g List.mem_cons_self]
    simp

/-- C193, single cells: after any history of calls with graphemes of one character the character read at
a column and row is the character of the row text at that column, `'\0'` outside the canvas only. -/
theorem getChar_row {w h : Nat} {c0 c : Canvas} (h0 : Canvas.new w h = some c0)
    (ops : List Op) (hops : ∀ d, Op.draw d ∈ ops → Draw.Single d) (hr : runOps c0 ops = some c)
    (x y : Nat) (hx : x < w) (hy : y < h) : (rowStr c y)[x]? = some (getChar c x y) := by
  obtain ⟨o, ew, eh, el⟩ := runOps_one h0 ops hops hr
  rw [rowStr_get o y (by omega), if_pos (by omega)]
  have hlt : y * c.w + x < c.cells.length := by rw [el, ew]; exact index_lt hx hy
  unfold getChar
  rw [if_neg (by omega)]
  simp only [Int.toNat_natCast, List.getElem?_eq_getElem hlt]
  simp only [Option.map_some, cellChar, cellText]
  split <;> rfl

/-- C193, backgrounds: a text drawn with a background that is not fully transparent has a background
in every column it takes. -/
theorem drawn_has_bg {c : Canvas} (hl : c.cells.length = c.w * c.h) {x y : Nat} {s : List Grapheme}
    {fg : Option RgbaColor} {b : RgbaColor} {a : Attrs} (hf : Fits c x y (widthOf s)) (hb : b.isTransparent = false)
    (hs : ∀ g ∈ s, 1 ≤ g.width ∧ Single g ∧ preserveText g (fg.map toCrosstermColor) (some b) a = false) :
    ∃ c', c.putStr x y s fg (some b) a = some c' ∧ ∀ k < widthOf s, hasBgAt c' ((x + k : Nat) : Int) y = true := by
  obtain ⟨c', p1, p2, p3, p4, p5⟩ := putStr_reads hl hf hs
  refine ⟨c', p1, fun k hk => ?_⟩
  obtain ⟨d, old, h1, -, -, -, h3, -⟩ := p5 k hk
  have := hf.column
  have := hf.row
  unfold hasBgAt
  rw [if_neg (by omega)]
  simp only [Int.toNat_natCast]
  rw [p2, ← Nat.add_assoc, h1]
  simp only [h3, resolveBackground, hb]
  rfl

/-! ### Witnesses -/

def blankOnly (ch : Char) : Bool := ch == ' '

/-- Draw on a new canvas and take the snapshot. -/
def shot (w h : Nat) (ds : List Draw) : Option (List Char) :=
  ((Canvas.new w h).bind fun c => runOps c (ds.map .draw)).map (snapshot blankOnly)

/-- `drawn_found_partial` on a canvas with other text. -/
example : shot 6 2 [.str 0 1 [⟨"x", 1⟩] none none {}, .str 2 1 [⟨"h", 1⟩, ⟨"i", 1⟩] none none {}] =
    some "\nx hi".toList := by decide +kernel

example : ∃ c0 c, Canvas.new 6 2 = some c0 ∧
    runOps c0 [.draw (.str 0 1 [⟨"x", 1⟩] none none {})] = some c ∧
    (∀ d, Op.draw d ∈ [Op.draw (.str 0 1 [⟨"x", 1⟩] none none {})] → Draw.Single d) ∧
    Fits c 2 1 (widthOf [⟨"h", 1⟩, ⟨"i", 1⟩]) ∧
    (reads [⟨"h", 1⟩, ⟨"i", 1⟩]).getLast? = some 'i' := by
  refine ⟨_, _, rfl, rfl, ?_, ⟨by decide +kernel, by decide +kernel, by decide +kernel, by decide +kernel,
    by decide +kernel, by decide +kernel⟩, by decide⟩
  intro d hd
  simp only [List.mem_cons, List.not_mem_nil, or_false, Op.draw.injEq] at hd
  subst hd
  intro g hg
  simp only [List.mem_cons, List.not_mem_nil, or_false] at hg
  subst hg
  exact ⟨'x', by decide, by decide⟩

/-- C193 is false for wide text: the two characters are drawn next to each other, the snapshot has a
blank between them, so the text is not in it. -/
theorem wide_counterexample : shot 4 1 [.str 0 0 [⟨"日", 2⟩, ⟨"本", 2⟩] none none {}] = some "日 本".toList ∧
    ¬ "日本".toList <:+: "日 本".toList := by
  constructor
  · decide +kernel
  · decide +kernel

/-- C193 is false behind a grapheme of several characters: the letter drawn in column 1 is character 2
of its line. -/
theorem cluster_counterexample : shot 3 1 [.str 0 0 [⟨"e\u0301", 1⟩, ⟨"x", 1⟩] none none {}] =
      some "e\u0301x".toList ∧
    ¬ StandsAt "x".toList "e\u0301x".toList 1 := by
  constructor
  · decide +kernel
  · unfold StandsAt; decide +kernel

end Textual.Snapshot
