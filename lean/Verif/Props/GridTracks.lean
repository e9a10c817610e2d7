import Verif.Props.Grid
import Verif.Props.Fraction
import Mathlib.Tactic.Linarith
import Mathlib.Tactic.FieldSimp
import Mathlib.Tactic.Ring
import Mathlib.Tactic.NormNum
import Mathlib.Algebra.Order.Floor.Ring
import Mathlib.Data.Rat.Floor

/-! C25, C46: sizes of grid tracks and regions of grid cells. -/

namespace Textual.Layout.Grid

/-! ### Offsets -/

theorem layTracks_get (g o : Int) (ss : List Int) (i : Nat) :
    (layTracks g o ss)[i]? = (ss[i]?).map fun s => ⟨o + (ss.take i).sum + i * g, s⟩ := by
  induction ss generalizing o i with
  | nil => simp [layTracks]
  | cons s ss ih =>
    cases i with
    | zero => simp [layTracks]
    | succ i =>
      rw [layTracks, List.getElem?_cons_succ, ih, List.getElem?_cons_succ, List.take_succ_cons, List.sum_cons]
      congr 1; funext t; congr 1; push_cast; ring

theorem layTracks_length (g o : Int) (ss : List Int) : (layTracks g o ss).length = ss.length := by
  induction ss generalizing o with
  | nil => rfl
  | cons s ss ih => simp [layTracks, ih]

theorem layTracks_sizes (g o : Int) (ss : List Int) : (layTracks g o ss).map (·.size) = ss := by
  induction ss generalizing o with
  | nil => rfl
  | cons s ss ih => simp [layTracks, ih]

/-- The distance from the start of track `i` to the end of the last of `n` tracks. -/
theorem spanLength_eq (g o : Int) (ss : List Int) (i n : Nat) (hn : 0 < n) (hin : i + n ≤ ss.length) :
    spanLength (layTracks g o ss) i n g = ((ss.drop i).take n).sum + ((n : Int) - 1) * g := by
  have hmin : min (i + n) ss.length = i + n := by omega
  unfold spanLength
  simp only [layTracks_length, hmin, layTracks_get, List.getElem?_eq_getElem (show i < ss.length by omega),
    Option.map_some]
  have hsplit : (ss.take (i + n)).sum = (ss.take i).sum + ((ss.drop i).take n).sum := by
    rw [List.take_add, List.sum_append]
  by_cases hlt : i + n < ss.length
  · rw [List.getElem?_eq_getElem hlt]
    simp only [Option.map_some]
    rw [hsplit]; push_cast; ring
  · have hge : ss.length ≤ i + n := by omega
    rw [List.getElem?_eq_none hge]
    simp only [Option.map_none]
    rw [List.map_drop, layTracks_sizes]
    have : (ss.drop i).take n = ss.drop i := List.take_of_length_le (by rw [List.length_drop]; omega)
    rw [this]
    congr 2
    omega

/-! ### Carried remainders -/

/-- Both distribution passes: `w` is the weight of a track that shares the free space `R` out of `T`. -/
def carry (R T : Int) (w : Scalar → Option Int) (f : Scalar → Int) : Fraction → List Scalar → List Int
  | _, [] => []
  | rem, s :: ss =>
    match w s with
    | some v => ((Fraction.new (R * v) T).add rem).floor :: carry R T w f ((Fraction.new (R * v) T).add rem).fract ss
    | none => f s :: carry R T w f rem ss

/-- Weight of a track in the `fr` pass. -/
def frW (s : Scalar) : Option Int := if s.unit = .fraction then some (toI64 (s.value * 1000)) else none
/-- Weight of a track in the `auto` pass. -/
def autoW (s : Scalar) : Option Int := if s.unit = .auto then some 1 else none

theorem frPass_eq (a R T : Int) (rem : Fraction) (ss : List Scalar) :
    frPass a R T rem ss = carry R T frW (fixedSize a) rem ss := by
  induction ss generalizing rem with
  | nil => rfl
  | cons s ss ih =>
    unfold frPass carry frW
    by_cases h : s.unit = .fraction
    · simp only [h, if_true]; rw [ih]; rfl
    · simp only [h, if_false]; rw [ih]; rfl

theorem autoPass_eq (a R : Int) (n : Nat) (rem : Fraction) (ss : List Scalar) :
    autoPass a R n rem ss = carry R n autoW (fixedSize a) rem ss := by
  induction ss generalizing rem with
  | nil => rfl
  | cons s ss ih =>
    unfold autoPass carry autoW
    by_cases h : s.unit = .auto
    · simp only [h, if_true]; rw [ih, Int.mul_one]; rfl
    · simp only [h, if_false]; rw [ih]; rfl

theorem carry_length (R T : Int) (w : Scalar → Option Int) (f : Scalar → Int) (rem : Fraction) (ss : List Scalar) :
    (carry R T w f rem ss).length = ss.length := by
  induction ss generalizing rem with
  | nil => rfl
  | cons s ss ih => unfold carry; split <;> simp [ih]

/-- The first `k` tracks together are the whole part of their exact sum. -/
theorem carry_sum (R T : Int) (hT : 0 < T) (w : Scalar → Option Int) (f : Scalar → Int) (rem : Fraction)
    (hc : rem.Canonical) (h0 : 0 ≤ rem.toRat) (h1 : rem.toRat < 1) (ss : List Scalar) (k : Nat) :
    ((carry R T w f rem ss).take k).sum =
      (((ss.take k).map fun s => if (w s).isSome then 0 else f s).sum : Int) +
        ⌊rem.toRat + R * (((ss.take k).map fun s => (w s).getD 0).sum : Int) / T⌋ := by
  have hfl : ⌊rem.toRat⌋ = 0 := Int.floor_eq_zero_iff.2 ⟨h0, h1⟩
  induction ss generalizing rem k with
  | nil => simp [carry, hfl]
  | cons s ss ih =>
    cases k with
    | zero => simp [hfl]
    | succ k =>
      unfold carry
      cases hw : w s with
      | none =>
        simp only [List.take_succ_cons, List.sum_cons, List.map_cons, hw, Option.isSome_none, Option.getD_none,
          Bool.false_eq_true, if_false, zero_add]
        rw [ih rem hc h0 h1 k hfl]; ring
      | some v =>
        have hn : (Fraction.new (R * v) T).Canonical := Fraction.new_canonical _ _
        have ha : ((Fraction.new (R * v) T).add rem).Canonical := Fraction.new_canonical _ _
        have hv : ((Fraction.new (R * v) T).add rem).toRat = (R * v : Rat) / T + rem.toRat := by
          rw [Fraction.add_toRat hn hc, Fraction.new_toRat (by omega)]; push_cast; rfl
        obtain ⟨g1, g2, g3, g4⟩ := Fraction.fract_spec ha
        simp only [List.take_succ_cons, List.sum_cons, List.map_cons, hw, Option.isSome_some, Option.getD_some,
          if_true, zero_add]
        rw [ih _ g1 g3 g4 k (Int.floor_eq_zero_iff.2 ⟨g3, g4⟩)]
        have hT' : (T : Rat) ≠ 0 := by exact_mod_cast (by omega : T ≠ 0)
        generalize hS : (((ss.take k).map fun s => (w s).getD 0).sum : Int) = S
        have e : rem.toRat + (R : Rat) * ((v + S : Int) : Rat) / T =
            (((Fraction.new (R * v) T).add rem).floor : Int) +
              (((Fraction.new (R * v) T).add rem).fract.toRat + R * (S : Rat) / T) := by
          rw [← add_assoc, ← g2, hv]; push_cast; field_simp; ring
        rw [e, Int.floor_intCast_add]
        ring

theorem carry_pos (R T : Int) (hT : 0 < T) (w : Scalar → Option Int) (f : Scalar → Int) (rem : Fraction)
    (hc : rem.Canonical) (h0 : 0 ≤ rem.toRat) (ss : List Scalar)
    (h : ∀ s ∈ ss, match w s with | some v => T ≤ R * v | none => 1 ≤ f s) :
    ∀ n ∈ carry R T w f rem ss, 1 ≤ n := by
  induction ss generalizing rem with
  | nil => simp [carry]
  | cons s ss ih =>
    have hs := h s (by simp)
    have hss := fun t ht => h t (List.mem_cons_of_mem s ht)
    unfold carry
    cases hw : w s with
    | none =>
      rw [hw] at hs
      simp only [List.mem_cons]
      rintro n (rfl | hn)
      · exact hs
      · exact ih rem hc h0 hss n hn
    | some v =>
      rw [hw] at hs
      have hn : (Fraction.new (R * v) T).Canonical := Fraction.new_canonical _ _
      have ha : ((Fraction.new (R * v) T).add rem).Canonical := Fraction.new_canonical _ _
      have hv : ((Fraction.new (R * v) T).add rem).toRat = (R * v : Rat) / T + rem.toRat := by
        rw [Fraction.add_toRat hn hc, Fraction.new_toRat (by omega)]; push_cast; rfl
      obtain ⟨g1, g2, g3, g4⟩ := Fraction.fract_spec ha
      simp only [List.mem_cons]
      rintro n (rfl | hn)
      · rw [Fraction.floor_toRat ha, Int.le_floor, hv]
        have hT' : (0 : Rat) < T := by exact_mod_cast hT
        have : (1 : Rat) ≤ (R * v : Rat) / T := by
          rw [le_div_iff₀ hT', one_mul]; exact_mod_cast hs
        push_cast; linarith
      · exact ih _ g1 g3 hss n hn

/-! ### The distribution -/

theorem trackSpecs_eq (specs : List Scalar) (count : Nat) : trackSpecs specs count = specList specs count := by
  unfold trackSpecs specList
  apply List.map_congr_left
  intro i _
  unfold specAt
  split
  · rename_i h; subst h; simp
  · rename_i h
    rw [List.getElem?_eq_getElem (Nat.mod_lt _ (List.length_pos_iff.2 h))]; rfl

theorem fixedSize_eq (a : Int) (s : Scalar) : fixedSize a s = trackCells a s := by
  obtain ⟨v, u⟩ := s
  cases u <;> rfl

theorem distributeSpace_length (specs : List Scalar) (count : Nat) (available gutter : Int) :
    (distributeSpace specs count available gutter).length = count := by
  unfold distributeSpace
  simp only [List.length_map]
  split
  · rw [frPass_eq, carry_length, trackSpecs]; simp
  · split
    · rw [autoPass_eq, carry_length, trackSpecs]; simp
    · simp [trackSpecs]

/-- C25: no track is empty. -/
theorem distributeSpace_pos (specs : List Scalar) (count : Nat) (available gutter : Int) :
    ∀ n ∈ distributeSpace specs count available gutter, 1 ≤ n := by
  unfold distributeSpace
  simp only [List.mem_map]
  rintro n ⟨m, _, rfl⟩
  split <;> omega

/-- C25: tracks follow one another separated by exactly one gutter. -/
theorem resolveTracks_chain (specs : List Scalar) (count : Nat) (available gutter : Int) :
    (resolveTracks specs count available gutter).length = count ∧
    (∀ t, (resolveTracks specs count available gutter)[0]? = some t → t.offset = 0) ∧
    (∀ t ∈ resolveTracks specs count available gutter, 1 ≤ t.size) ∧
    ∀ (i : Nat) (t u : Track), (resolveTracks specs count available gutter)[i]? = some t →
      (resolveTracks specs count available gutter)[i + 1]? = some u →
      u.offset = t.offset + t.size + gutter := by
  unfold resolveTracks
  refine ⟨?_, ?_, ?_, ?_⟩
  · rw [layTracks_length, distributeSpace_length]
  · intro t ht
    rw [layTracks_get] at ht
    obtain ⟨s, _, rfl⟩ := Option.map_eq_some_iff.1 ht
    simp
  · intro t ht
    have := List.mem_map_of_mem (f := (·.size)) ht
    rw [layTracks_sizes] at this
    exact distributeSpace_pos _ _ _ _ _ this
  · intro i t u ht hu
    rw [layTracks_get] at ht hu
    obtain ⟨s, hs, rfl⟩ := Option.map_eq_some_iff.1 ht
    obtain ⟨s', hs', rfl⟩ := Option.map_eq_some_iff.1 hu
    simp only
    rw [List.take_succ, hs]
    simp
    ring

theorem clamp_id (l : List Int) (h : ∀ n ∈ l, 1 ≤ n) : (l.map fun s => if s < 1 then (1 : Int) else s) = l := by
  conv_rhs => rw [← List.map_id l]
  apply List.map_congr_left
  intro n hn
  have := h n hn
  simp; omega

theorem toI64_nat (n : Nat) (h : n < 9223372036854775808) : toI64 (n : Rat) = n := by
  unfold toI64
  have h0 : (0 : Rat) ≤ (n : Rat) := by exact_mod_cast Nat.zero_le n
  rw [if_pos h0, Int.floor_natCast]
  omega

/-- Thousandths of a weight. -/
theorem thousandths {l : List Scalar} (h : ∀ s ∈ l, s.unit = .fraction → ∃ n : Nat, s.value * 1000 = n) :
    ∃ N : Nat, (l.map weight).sum * 1000 = N ∧
      (N < 9223372036854775808 → ((l.map fun s => (frW s).getD 0).sum : Int) = N ∧
        ∀ s ∈ l, s.unit = .fraction → (toI64 (s.value * 1000) : Rat) = s.value * 1000) := by
  induction l with
  | nil => exact ⟨0, by simp⟩
  | cons s l ih =>
    obtain ⟨N, h1, h2⟩ := ih fun t ht => h t (List.mem_cons_of_mem s ht)
    by_cases hu : s.unit = .fraction
    · obtain ⟨n, hn⟩ := h s (by simp) hu
      refine ⟨n + N, ?_, ?_⟩
      · rw [List.map_cons, List.sum_cons, add_mul, h1, weight, if_pos hu, hn]; push_cast; rfl
      · intro hlt
        obtain ⟨h3, h4⟩ := h2 (by omega)
        have hv : toI64 (s.value * 1000) = n := by rw [hn]; exact toI64_nat n (by omega)
        refine ⟨?_, ?_⟩
        · rw [List.map_cons, List.sum_cons, h3, frW, if_pos hu, Option.getD_some, hv]; push_cast; rfl
        · intro t ht htu
          rcases List.mem_cons.1 ht with rfl | ht
          · rw [hv, hn]; push_cast; rfl
          · exact h4 t ht htu
    · refine ⟨N, ?_, ?_⟩
      · rw [List.map_cons, List.sum_cons, add_mul, h1, weight, if_neg hu]; simp
      · intro hlt
        obtain ⟨h3, h4⟩ := h2 hlt
        refine ⟨?_, ?_⟩
        · rw [List.map_cons, List.sum_cons, h3, frW, if_neg hu]; simp
        · intro t ht htu
          rcases List.mem_cons.1 ht with rfl | ht
          · exact absurd htu hu
          · exact h4 t ht htu

/-- The prefix sums of exact weights. -/
theorem frW_sum {l : List Scalar} (h : ∀ s ∈ l, s.unit = .fraction → (toI64 (s.value * 1000) : Rat) = s.value * 1000) :
    (((l.map fun s => (frW s).getD 0).sum : Int) : Rat) = (l.map weight).sum * 1000 := by
  induction l with
  | nil => simp
  | cons s l ih =>
    have := ih fun t ht => h t (List.mem_cons_of_mem s ht)
    rw [List.map_cons, List.sum_cons, List.map_cons, List.sum_cons, Int.cast_add, this, add_mul]
    congr 1
    unfold frW weight
    by_cases hu : s.unit = .fraction
    · rw [if_pos hu, if_pos hu, Option.getD_some, h s (by simp) hu]
    · simp [hu]

/-- Conditions under which `fr` tracks share the free space exactly: weights with at most three decimals,
no `auto` track, and every track at least one cell. -/
structure FrTracks (specs : List Scalar) (count : Nat) (available gutter : Int) : Prop where
  some_fr : 0 < ((specList specs count).map weight).sum
  decimals : ∀ s ∈ specList specs count, s.unit = .fraction → ∃ n : Nat, s.value * 1000 = n
  small : ((specList specs count).map weight).sum < 9223372036854775
  no_auto : ∀ s ∈ specList specs count, s.unit ≠ .auto
  fr_room : ∀ s ∈ specList specs count, s.unit = .fraction →
    ((specList specs count).map weight).sum ≤ freeSpace specs count available gutter * s.value
  fixed_room : ∀ s ∈ specList specs count, s.unit ≠ .fraction →
    1 ≤ trackCells (trackSpace count available gutter) s
  space : 0 ≤ trackSpace count available gutter
  count_pos : 0 < count

theorem availableForTracks_eq (count : Nat) (available gutter : Int) (hc : 0 < count)
    (h : 0 ≤ trackSpace count available gutter) :
    availableForTracks count available gutter = trackSpace count available gutter := by
  unfold availableForTracks trackSpace at *
  have : ((count - 1 : Nat) : Int) = (count : Int) - 1 := by omega
  rw [this]; omega

/-- C25: with flexible tracks, the first `k` tracks take exactly the whole part of their exact total. -/
theorem distribute_prefix_partial (specs : List Scalar) (count : Nat) (available gutter : Int)
    (h : FrTracks specs count available gutter) (k : Nat) :
    ((distributeSpace specs count available gutter).take k).sum =
      (((specList specs count).take k).map (trackCells (trackSpace count available gutter))).sum +
        ⌊(freeSpace specs count available gutter : Rat) * (((specList specs count).take k).map weight).sum /
          ((specList specs count).map weight).sum⌋ := by
  obtain ⟨N, hN, hN2⟩ := thousandths h.decimals
  have hNlt : N < 9223372036854775808 := by
    have h1 := h.small
    have : (N : Rat) < 9223372036854775000 := by rw [← hN]; linarith
    have : N < 9223372036854775000 := by exact_mod_cast this
    omega
  obtain ⟨hsum, hex⟩ := hN2 hNlt
  have hNpos : 0 < N := by
    have := h.some_fr
    have : (0 : Rat) < N := by rw [← hN]; linarith
    exact_mod_cast this
  have hav := availableForTracks_eq count available gutter h.count_pos h.space
  have hfix : ∀ l : List Scalar, l.map (fixedSize (trackSpace count available gutter)) =
      l.map (trackCells (trackSpace count available gutter)) := fun l =>
    List.map_congr_left fun s _ => fixedSize_eq _ s
  have htot : ((specList specs count).map fun s => if s.unit = .fraction then s.value else 0).sum =
      ((specList specs count).map weight).sum := rfl
  have hR : trackSpace count available gutter -
      ((specList specs count).map (fixedSize (trackSpace count available gutter))).sum =
      freeSpace specs count available gutter := by rw [hfix]; rfl
  have hT : toI64 (((specList specs count).map weight).sum * 1000) = N := by rw [hN]; exact toI64_nat N hNlt
  unfold distributeSpace
  simp only [hav, trackSpecs_eq, htot, hR, hT, if_pos h.some_fr, frPass_eq]
  have hz : Fraction.ZERO.Canonical := by simp [Fraction.Canonical, Fraction.ZERO]
  have hz0 : Fraction.ZERO.toRat = 0 := by decide +kernel
  rw [clamp_id]
  · rw [carry_sum _ _ (by omega) _ _ _ hz (by rw [hz0]) (by rw [hz0]; decide)]
    congr 1
    · congr 1
      apply List.map_congr_left
      intro s hs
      rw [fixedSize_eq]
      unfold frW
      by_cases hu : s.unit = .fraction
      · rw [if_pos hu]
        obtain ⟨v, u⟩ := s
        simp only at hu; subst hu
        simp [trackCells]
      · rw [if_neg hu]; simp
    · rw [hz0, zero_add, frW_sum fun s hs => hex s (List.mem_of_mem_take hs)]
      congr 1
      have : ((N : Int) : Rat) = ((specList specs count).map weight).sum * 1000 := by rw [hN]; push_cast; rfl
      rw [this]
      have := h.some_fr
      have hne : ((specList specs count).map weight).sum ≠ 0 := by linarith
      field_simp
  · refine carry_pos _ _ (by omega) _ _ _ hz (by rw [hz0]) _ ?_
    intro s hs
    unfold frW
    by_cases hu : s.unit = .fraction
    · rw [if_pos hu]
      have h1 := h.fr_room s hs hu
      have h2 : ((N : Int) : Rat) ≤
          ((freeSpace specs count available gutter * toI64 (s.value * 1000) : Int) : Rat) := by
        push_cast
        rw [hex s hs hu, ← hN, ← mul_assoc]
        linarith
      exact_mod_cast h2
    · rw [if_neg hu]
      simp only [fixedSize_eq]
      exact h.fixed_room s hs hu

/-- C25: flexible tracks fill the grid exactly. -/
theorem distribute_fills_partial (specs : List Scalar) (count : Nat) (available gutter : Int)
    (h : FrTracks specs count available gutter) :
    (distributeSpace specs count available gutter).sum + ((count : Int) - 1) * gutter = available := by
  have := distribute_prefix_partial specs count available gutter h count
  have hl : (specList specs count).length = count := by simp [specList]
  rw [List.take_of_length_le (by rw [distributeSpace_length]), List.take_of_length_le (by rw [hl])] at this
  have hs := h.some_fr
  rw [mul_div_assoc, div_self (by linarith), mul_one, Int.floor_intCast] at this
  rw [this]
  unfold freeSpace trackSpace
  ring

/-- C25: a flexible track has its exact share of the free space, up to less than one cell. -/
theorem distribute_share_partial (specs : List Scalar) (count : Nat) (available gutter : Int)
    (h : FrTracks specs count available gutter) (i : Nat) (n : Int)
    (hn : (distributeSpace specs count available gutter)[i]? = some n) (hu : (specAt specs i).unit = .fraction) :
    |(n : Rat) - freeSpace specs count available gutter * (specAt specs i).value /
      ((specList specs count).map weight).sum| < 1 := by
  have hi : i < count := by
    have := (List.getElem?_eq_some_iff.1 hn).1; rwa [distributeSpace_length] at this
  have hs : (specList specs count)[i]? = some (specAt specs i) := by simp [specList, hi]
  have h1 := distribute_prefix_partial specs count available gutter h i
  have h2 := distribute_prefix_partial specs count available gutter h (i + 1)
  rw [List.take_succ, hn, List.take_succ, hs] at h2
  simp only [Option.toList_some, List.map_append, List.sum_append, List.map_cons, List.map_nil, List.sum_cons,
    List.sum_nil, add_zero] at h2
  have hc0 : trackCells (trackSpace count available gutter) (specAt specs i) = 0 := by
    generalize specAt specs i = s at hu
    obtain ⟨v, u⟩ := s
    simp only at hu; subst hu; rfl
  have hw : weight (specAt specs i) = (specAt specs i).value := by simp [weight, hu]
  rw [h1, hc0, hw] at h2
  generalize (((specList specs count).take i).map weight).sum = W at *
  generalize hTd : ((specList specs count).map weight).sum = T at *
  generalize freeSpace specs count available gutter = R at *
  generalize (specAt specs i).value = v at *
  have e : (R : Rat) * (W + v) / T = R * W / T + R * v / T := by ring
  rw [e] at h2
  generalize (R : Rat) * W / T = a at *
  generalize (R : Rat) * v / T = b at *
  have f1 := Int.floor_le a
  have f2 := Int.lt_floor_add_one a
  have f3 := Int.floor_le (a + b)
  have f4 := Int.lt_floor_add_one (a + b)
  have hnq : (n : Rat) = ⌊a + b⌋ - ⌊a⌋ := by
    have : n = ⌊a + b⌋ - ⌊a⌋ := by omega
    rw [this]; push_cast; rfl
  rw [abs_lt, hnq]
  constructor <;> linarith

/-- Conditions under which `auto` tracks share the free space exactly. -/
structure AutoTracks (specs : List Scalar) (count : Nat) (available gutter : Int) : Prop where
  no_fr : ∀ s ∈ specList specs count, s.unit ≠ .fraction
  some_auto : 0 < ((specList specs count).filter fun s => s.unit = .auto).length
  auto_room : (((specList specs count).filter fun s => s.unit = .auto).length : Int) ≤
    freeSpace specs count available gutter
  fixed_room : ∀ s ∈ specList specs count, s.unit ≠ .auto → 1 ≤ trackCells (trackSpace count available gutter) s
  space : 0 ≤ trackSpace count available gutter

theorem autoW_sum (l : List Scalar) :
    ((l.map fun s => (autoW s).getD 0).sum : Int) = (l.filter fun s => s.unit = .auto).length := by
  induction l with
  | nil => rfl
  | cons s l ih =>
    rw [List.map_cons, List.sum_cons, ih]
    by_cases hu : s.unit = .auto
    · simp [autoW, hu, Int.add_comm]
    · simp [autoW, hu]

/-- C25: with `auto` tracks and no `fr` track, the first `k` tracks take exactly the whole part of their total. -/
theorem distribute_auto_prefix_partial (specs : List Scalar) (count : Nat) (available gutter : Int)
    (h : AutoTracks specs count available gutter) (k : Nat) :
    ((distributeSpace specs count available gutter).take k).sum =
      (((specList specs count).take k).map (trackCells (trackSpace count available gutter))).sum +
        ⌊(freeSpace specs count available gutter : Rat) *
          (((specList specs count).take k).filter fun s => s.unit = .auto).length /
          ((specList specs count).filter fun s => s.unit = .auto).length⌋ := by
  have hcount : 0 < count := by
    by_contra hc
    have : count = 0 := by omega
    have := h.some_auto
    simp_all [specList]
  have hav := availableForTracks_eq count available gutter hcount h.space
  have hfix : ∀ l : List Scalar, l.map (fixedSize (trackSpace count available gutter)) =
      l.map (trackCells (trackSpace count available gutter)) := fun l =>
    List.map_congr_left fun s _ => fixedSize_eq _ s
  have htot : ((specList specs count).map fun s => if s.unit = .fraction then s.value else 0).sum = 0 := by
    apply List.sum_eq_zero
    intro x hx
    obtain ⟨s, hs, rfl⟩ := List.mem_map.1 hx
    simp [h.no_fr s hs]
  have hR : trackSpace count available gutter -
      ((specList specs count).map (fixedSize (trackSpace count available gutter))).sum =
      freeSpace specs count available gutter := by rw [hfix]; rfl
  have hsome := h.some_auto
  unfold distributeSpace
  simp only [hav, trackSpecs_eq, htot, hR, lt_irrefl, if_false, if_pos hsome, autoPass_eq]
  have hz : Fraction.ZERO.Canonical := by simp [Fraction.Canonical, Fraction.ZERO]
  have hz0 : Fraction.ZERO.toRat = 0 := by decide +kernel
  rw [clamp_id]
  · rw [carry_sum _ _ (by omega) _ _ _ hz (by rw [hz0]) (by rw [hz0]; decide)]
    congr 1
    · congr 1
      apply List.map_congr_left
      intro s hs
      rw [fixedSize_eq]
      unfold autoW
      by_cases hu : s.unit = .auto
      · rw [if_pos hu]
        obtain ⟨v, u⟩ := s
        simp only at hu; subst hu
        simp [trackCells]
      · rw [if_neg hu]; simp
    · rw [hz0, zero_add, autoW_sum]
      push_cast; rfl
  · refine carry_pos _ _ (by omega) _ _ _ hz (by rw [hz0]) _ ?_
    intro s hs
    unfold autoW
    by_cases hu : s.unit = .auto
    · rw [if_pos hu]; simp only; have := h.auto_room; omega
    · rw [if_neg hu]
      simp only [fixedSize_eq]
      exact h.fixed_room s hs hu

/-- C25: `auto` tracks fill the grid exactly. -/
theorem distribute_auto_fills_partial (specs : List Scalar) (count : Nat) (available gutter : Int)
    (h : AutoTracks specs count available gutter) :
    (distributeSpace specs count available gutter).sum + ((count : Int) - 1) * gutter = available := by
  have := distribute_auto_prefix_partial specs count available gutter h count
  have hl : (specList specs count).length = count := by simp [specList]
  rw [List.take_of_length_le (by rw [distributeSpace_length]), List.take_of_length_le (by rw [hl])] at this
  have hs := h.some_auto
  have hne : (((specList specs count).filter fun s => s.unit = .auto).length : Rat) ≠ 0 := by
    exact_mod_cast (by omega)
  rw [mul_div_assoc, div_self hne, mul_one, Int.floor_intCast] at this
  rw [this]
  unfold freeSpace trackSpace
  ring

/-- C25 is false when `auto` and `fr` tracks are mixed: the `fr` track takes all, the `auto` track still gets one
cell, and the grid is one cell too wide. -/
theorem fills_auto_counterexample :
    distributeSpace [⟨0, .auto⟩, ⟨1, .fraction⟩] 2 80 0 = [1, 80] := by decide +kernel

/-- C25 is false when there are more tracks than cells. -/
theorem fills_narrow_counterexample : distributeSpace [] 3 2 0 = [1, 1, 1] := by decide +kernel

/-- C25 is false for weights with more than three decimals: cut to thousandths one by one, but the total is cut
only once. -/
theorem fills_decimals_counterexample :
    distributeSpace [⟨10005 / 10000, .fraction⟩] 2 4000 0 = [1999, 1999] := by decide +kernel

example : distributeSpace [⟨1, .fraction⟩, ⟨10, .cells⟩, ⟨5 / 2, .fraction⟩, ⟨10, .percent⟩] 4 83 1 =
    [17, 10, 45, 8] := by decide +kernel
example : FrTracks [⟨1, .fraction⟩, ⟨10, .cells⟩, ⟨5 / 2, .fraction⟩, ⟨10, .percent⟩] 4 83 1 where
  some_fr := by decide +kernel
  decimals := by
    have : specList [⟨1, .fraction⟩, ⟨10, .cells⟩, ⟨5 / 2, .fraction⟩, ⟨10, .percent⟩] 4 =
      [⟨1, .fraction⟩, ⟨10, .cells⟩, ⟨5 / 2, .fraction⟩, ⟨10, .percent⟩] := by decide +kernel
    rw [this]
    intro s hs hu
    simp only [List.mem_cons, List.not_mem_nil, or_false] at hs
    rcases hs with rfl | rfl | rfl | rfl
    · exact ⟨1000, by norm_num⟩
    · simp at hu
    · exact ⟨2500, by norm_num⟩
    · simp at hu
  small := by decide +kernel
  no_auto := by decide +kernel
  fr_room := by decide +kernel
  fixed_room := by decide +kernel
  space := by decide +kernel
  count_pos := by decide
example : AutoTracks [⟨0, .auto⟩, ⟨7, .cells⟩, ⟨0, .auto⟩] 3 50 2 where
  no_fr := by decide +kernel
  some_auto := by decide +kernel
  auto_room := by decide +kernel
  fixed_room := by decide +kernel
  space := by decide +kernel
example : distributeSpace [⟨0, .auto⟩, ⟨7, .cells⟩, ⟨0, .auto⟩] 3 50 2 = [19, 7, 20] := by decide +kernel

end Textual.Layout.Grid
