import Verif.Model.Fraction
import Mathlib.Data.Rat.Floor
import Mathlib.Data.Int.GCD
import Mathlib.Tactic.FieldSimp
import Mathlib.Tactic.Ring
import Mathlib.Tactic.Linarith

/-! C02: fractions are canonical and exact. -/

namespace Textual.Fraction

/-- The rational number a fraction stands for. -/
def toRat (f : Fraction) : Rat := (f.num : Rat) / (f.den : Rat)

/-- Positive denominator and lowest terms. -/
def Canonical (f : Fraction) : Prop := 0 < f.den ∧ Int.gcd f.num f.den = 1

theorem gcdLoop_eq (a b : Nat) : gcdLoop a b = Nat.gcd a b := by
  induction b using Nat.strongRecOn generalizing a with
  | _ b ih =>
    unfold gcdLoop
    split
    · simp [*]
    · rw [ih _ (Nat.mod_lt _ (by omega)), Nat.gcd_comm, ← Nat.gcd_rec, Nat.gcd_comm]

theorem gcd_eq {a b : Nat} (hb : b ≠ 0) : gcd a b = Nat.gcd a b := by
  unfold gcd
  rw [gcdLoop_eq]
  have := Nat.gcd_pos_of_pos_right a (Nat.pos_of_ne_zero hb)
  omega

/-- `new` in closed form: divide both by the gcd, with the sign moved to the numerator. -/
theorem new_eq {n d : Int} (hd : d ≠ 0) :
    new n d = ⟨(d.sign * n) / Int.gcd n d, d.natAbs / Int.gcd n d⟩ := by
  have hg : gcd n.natAbs d.natAbs = Int.gcd n d := gcd_eq (by omega)
  have hgn : (Int.gcd n d : Int) ∣ n := Int.gcd_dvd_left ..
  have hgd : (Int.gcd n d : Int) ∣ d := Int.gcd_dvd_right ..
  unfold new
  rw [if_neg hd, hg]
  have hs : (if d < 0 then (-1 : Int) else 1) = d.sign := by
    split
    · rw [Int.sign_eq_neg_one_of_neg (by assumption)]
    · rw [Int.sign_eq_one_of_pos (by omega)]
  simp only [hs, mk.injEq]
  constructor
  · exact Int.tdiv_eq_ediv_of_dvd (Dvd.dvd.mul_left hgn _)
  · rw [Int.sign_mul_self_eq_natAbs,
      Int.tdiv_eq_ediv_of_nonneg (by omega)]
    apply Int.natAbs_of_nonneg
    exact Int.ediv_nonneg (by omega) (by omega)

/-- C02: a zero denominator is turned into zero (as documented). -/
theorem new_zero_den (n : Int) : new n 0 = ZERO := by simp [new]

/-- C02: `new` always gives a positive denominator and lowest terms. -/
theorem new_canonical (n d : Int) : (new n d).Canonical := by
  by_cases hd : d = 0
  · subst hd; rw [new_zero_den]; simp [Canonical, ZERO]
  · rw [new_eq hd]
    have hpos : 0 < Int.gcd n d := Int.gcd_pos_of_ne_zero_right _ hd
    have hgd : Int.gcd n d ∣ d.natAbs := Int.gcd_dvd_natAbs_right ..
    have hgn : (Int.gcd n d : Int) ∣ n := Int.gcd_dvd_left ..
    refine ⟨?_, ?_⟩
    · simp only
      exact_mod_cast Nat.div_pos (Nat.le_of_dvd (by omega) hgd) hpos
    · simp only
      have h1 : ((d.sign * n) / (Int.gcd n d : Int)) = d.sign * (n / Int.gcd n d) :=
        Int.mul_ediv_assoc _ hgn
      rw [h1]
      have h2 : ((d.natAbs : Int) / (Int.gcd n d : Int)) = d.sign * (d / Int.gcd n d) := by
        rw [← Int.sign_mul_self_eq_natAbs]
        exact Int.mul_ediv_assoc _ (Int.gcd_dvd_right ..)
      rw [h2, Int.gcd_mul_left, Int.natAbs_sign_of_ne_zero hd, one_mul]
      exact Int.gcd_ediv_gcd_ediv_gcd hpos

/-- C02: `new` is exact. -/
theorem new_toRat {n d : Int} (hd : d ≠ 0) : (new n d).toRat = (n : Rat) / (d : Rat) := by
  have hpos : 0 < Int.gcd n d := Int.gcd_pos_of_ne_zero_right _ hd
  obtain ⟨a, ha⟩ : (Int.gcd n d : Int) ∣ n := Int.gcd_dvd_left ..
  obtain ⟨b, hb⟩ : (Int.gcd n d : Int) ∣ d := Int.gcd_dvd_right ..
  rw [new_eq hd, toRat]
  generalize hg : Int.gcd n d = g at *
  have hg0 : (g : Int) ≠ 0 := by omega
  have h1 : (d.sign * n) / (g : Int) = d.sign * a := by
    rw [ha, mul_left_comm, Int.mul_ediv_cancel_left _ hg0]
  have h2 : (d.natAbs : Int) / (g : Int) = d.sign * b := by
    rw [← Int.sign_mul_self_eq_natAbs]
    conv_lhs => rw [show d.sign * d = d.sign * (g * b) by rw [← hb]]
    rw [mul_left_comm, Int.mul_ediv_cancel_left _ hg0]
  simp only [h1, h2]
  have hs : (d.sign : Rat) ≠ 0 := by
    have : d.sign ≠ 0 := by simpa [Int.sign_eq_zero_iff_zero] using hd
    exact_mod_cast this
  have hgq : (g : Rat) ≠ 0 := by exact_mod_cast hpos.ne'
  push_cast
  rw [mul_div_mul_left _ _ hs]
  have e1 : (n : Rat) = (g : Rat) * (a : Rat) := by rw [ha]; push_cast; ring
  have e2 : (d : Rat) = (g : Rat) * (b : Rat) := by
    have := congrArg (Int.cast : Int → Rat) hb
    push_cast at this; exact this
  rw [e1, e2, mul_div_mul_left _ _ hgq]

/-- C02: canonical fractions are equal (derived `PartialEq`) exactly when their values are. -/
theorem eq_iff_toRat {a b : Fraction} (ha : a.Canonical) (hb : b.Canonical) :
    a = b ↔ a.toRat = b.toRat := by
  constructor
  · rintro rfl; rfl
  · intro h
    obtain ⟨an, ad⟩ := a
    obtain ⟨bn, bd⟩ := b
    obtain ⟨ha0, hac⟩ := ha
    obtain ⟨hb0, hbc⟩ := hb
    simp only [toRat] at *
    have h1 : ((an : Rat) / (ad : Rat)).num = an := Rat.num_div_eq_of_coprime ha0 (by simpa [Int.gcd] using hac)
    have h2 : ((an : Rat) / (ad : Rat)).den = ad := Rat.den_div_eq_of_coprime ha0 (by simpa [Int.gcd] using hac)
    have h3 : ((bn : Rat) / (bd : Rat)).num = bn := Rat.num_div_eq_of_coprime hb0 (by simpa [Int.gcd] using hbc)
    have h4 : ((bn : Rat) / (bd : Rat)).den = bd := Rat.den_div_eq_of_coprime hb0 (by simpa [Int.gcd] using hbc)
    rw [h] at h1 h2
    simp only [mk.injEq]
    exact ⟨by rw [← h1, h3], by rw [← h2, h4]⟩

theorem den_ne {a : Fraction} (h : a.Canonical) : a.den ≠ 0 := by
  have := h.1; omega

theorem denQ_ne {a : Fraction} (h : a.Canonical) : (a.den : Rat) ≠ 0 := by
  exact_mod_cast den_ne h

theorem ofInt_toRat (n : Int) : (ofInt n).toRat = n := by
  rw [ofInt, new_toRat (by decide)]; simp

/-- C02: addition is exact. -/
theorem add_toRat {a b : Fraction} (ha : a.Canonical) (hb : b.Canonical) :
    (a.add b).toRat = a.toRat + b.toRat := by
  rw [add, new_toRat (mul_ne_zero (den_ne ha) (den_ne hb))]
  have := denQ_ne ha; have := denQ_ne hb
  push_cast [toRat]; field_simp

/-- C02: subtraction is exact. -/
theorem sub_toRat {a b : Fraction} (ha : a.Canonical) (hb : b.Canonical) :
    (a.sub b).toRat = a.toRat - b.toRat := by
  rw [sub, new_toRat (mul_ne_zero (den_ne ha) (den_ne hb))]
  have := denQ_ne ha; have := denQ_ne hb
  push_cast [toRat]; field_simp

/-- C02: multiplication is exact. -/
theorem mul_toRat {a b : Fraction} (ha : a.Canonical) (hb : b.Canonical) :
    (a.mul b).toRat = a.toRat * b.toRat := by
  rw [mul, new_toRat (mul_ne_zero (den_ne ha) (den_ne hb))]
  have := denQ_ne ha; have := denQ_ne hb
  push_cast [toRat]; field_simp

/-- C02: scaling by a ratio is exact. -/
theorem mulRatio_toRat {a : Fraction} (ha : a.Canonical) (n : Int) {d : Int} (hd : d ≠ 0) :
    (a.mulRatio n d).toRat = a.toRat * n / d := by
  rw [mulRatio, new_toRat (mul_ne_zero (den_ne ha) hd)]
  have := denQ_ne ha
  have : (d : Rat) ≠ 0 := by exact_mod_cast hd
  push_cast [toRat]; field_simp

/-- `floor` is Euclidean division. -/
theorem floor_eq_ediv {a : Fraction} (ha : a.Canonical) : a.floor = a.num / a.den := by
  have hd := ha.1
  unfold floor
  split
  · exact Int.tdiv_eq_ediv_of_nonneg (by assumption)
  · rename_i hn
    have hle : a.num - a.den + 1 ≤ 0 := by omega
    have e : (a.num - a.den + 1).tdiv a.den = -((-(a.num - a.den + 1)) / a.den) := by
      rw [← Int.tdiv_eq_ediv_of_nonneg (by omega : 0 ≤ -(a.num - a.den + 1)), Int.neg_tdiv, neg_neg]
    rw [e]
    have h1 := Int.mul_ediv_add_emod (-(a.num - a.den + 1)) a.den
    have h2 := Int.emod_nonneg (-(a.num - a.den + 1)) (by omega : a.den ≠ 0)
    have h3 := Int.emod_lt_of_pos (-(a.num - a.den + 1)) hd
    generalize (-(a.num - a.den + 1)) / a.den = q at *
    generalize (-(a.num - a.den + 1)) % a.den = r at *
    have : a.num = (a.den - 1 - r) + a.den * (-q) := by linarith
    rw [this, Int.add_mul_ediv_left _ _ (by omega : a.den ≠ 0),
      Int.ediv_eq_zero_of_lt (by omega) (by omega)]
    ring

/-- C02: `floor` is the greatest integer not above the value. -/
theorem floor_toRat {a : Fraction} (ha : a.Canonical) : a.floor = ⌊a.toRat⌋ := by
  rw [floor_eq_ediv ha, toRat]
  have hd := ha.1
  obtain ⟨d, hdn⟩ : ∃ d : Nat, a.den = d := ⟨a.den.toNat, by omega⟩
  rw [hdn]
  exact (Rat.floor_intCast_div_natCast a.num d).symm

/-- C02: `fract` is the value minus its floor, canonical, non-negative and below one. -/
theorem fract_spec {a : Fraction} (ha : a.Canonical) :
    a.fract.Canonical ∧ a.toRat = a.floor + a.fract.toRat ∧
    0 ≤ a.fract.toRat ∧ a.fract.toRat < 1 := by
  have hval : a.fract.toRat = a.toRat - a.floor := by
    rw [fract, new_toRat (den_ne ha), toRat]
    have := denQ_ne ha
    push_cast; field_simp
  refine ⟨new_canonical _ _, by rw [hval]; ring, ?_, ?_⟩
  · rw [hval, floor_toRat ha]; linarith [Int.floor_le a.toRat]
  · rw [hval, floor_toRat ha]; linarith [Int.lt_floor_add_one a.toRat]

/-- Arithmetic expressions over fractions. -/
inductive Expr where
  | lit (n d : Int) | add (a b : Expr) | sub (a b : Expr) | mul (a b : Expr)
  | mulRatio (a : Expr) (n d : Int)

/-- Evaluation with the code's operations. -/
def Expr.eval : Expr → Fraction
  | .lit n d => new n d
  | .add a b => a.eval.add b.eval
  | .sub a b => a.eval.sub b.eval
  | .mul a b => a.eval.mul b.eval
  | .mulRatio a n d => a.eval.mulRatio n d

/-- Evaluation over the rationals. -/
def Expr.value : Expr → Rat
  | .lit n d => n / d
  | .add a b => a.value + b.value
  | .sub a b => a.value - b.value
  | .mul a b => a.value * b.value
  | .mulRatio a n d => a.value * n / d

/-- No literal denominator is zero. -/
def Expr.WF : Expr → Prop
  | .lit _ d => d ≠ 0
  | .add a b | .sub a b | .mul a b => a.WF ∧ b.WF
  | .mulRatio a _ d => a.WF ∧ d ≠ 0

theorem Expr.eval_canonical (e : Expr) : e.eval.Canonical := by
  cases e <;> exact new_canonical _ _

/-- C02: whole computations are canonical and exact. -/
theorem Expr.eval_exact (e : Expr) (h : e.WF) :
    e.eval.Canonical ∧ e.eval.toRat = e.value := by
  refine ⟨e.eval_canonical, ?_⟩
  induction e with
  | lit n d => exact new_toRat h
  | add a b iha ihb =>
    rw [Expr.eval, add_toRat a.eval_canonical b.eval_canonical, iha h.1, ihb h.2, Expr.value]
  | sub a b iha ihb =>
    rw [Expr.eval, sub_toRat a.eval_canonical b.eval_canonical, iha h.1, ihb h.2, Expr.value]
  | mul a b iha ihb =>
    rw [Expr.eval, mul_toRat a.eval_canonical b.eval_canonical, iha h.1, ihb h.2, Expr.value]
  | mulRatio a n d iha =>
    rw [Expr.eval, mulRatio_toRat a.eval_canonical n h.2, iha h.1, Expr.value]

/-- A non-trivial well-formed expression with a negative denominator. -/
example : (Expr.add (.lit 7 (-3)) (.mulRatio (.lit 5 4) 2 6)).WF := by simp [Expr.WF]

example : (⟨-7, 3⟩ : Fraction).Canonical := by unfold Canonical; decide
example : (⟨-7, 3⟩ : Fraction).floor = -3 := by decide

end Textual.Fraction
