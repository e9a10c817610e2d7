/-!
Model of `/repo/crates/textual/src/fraction.rs`. `i64` is modelled by `Int` (no overflow);
Rust's `/` on integers is `Int.tdiv` (truncation toward zero).
-/

namespace Textual

/-- fraction.rs:34-37 `Fraction`. -/
structure Fraction where
  num : Int
  den : Int
deriving DecidableEq, Repr

namespace Fraction

/-- fraction.rs:41 `Fraction::ZERO`. -/
def ZERO : Fraction := ⟨0, 1⟩

/-- fraction.rs:123-130 `gcd`, the loop without the final `max(1)`. The code calls it on absolute
values only, so the arguments are naturals. -/
def gcdLoop (a b : Nat) : Nat :=
  if h : b = 0 then a else gcdLoop b (a % b)
termination_by b
decreasing_by exact Nat.mod_lt _ (Nat.pos_of_ne_zero h)

/-- fraction.rs:123-130 `gcd`. -/
def gcd (a b : Nat) : Nat := max (gcdLoop a b) 1

/-- fraction.rs:47-57 `Fraction::new`. -/
def new (num den : Int) : Fraction :=
  if den = 0 then ZERO
  else
    let g : Int := gcd num.natAbs den.natAbs
    let sign : Int := if den < 0 then -1 else 1
    { num := (sign * num).tdiv g, den := ((sign * den).tdiv g).natAbs }

/-- fraction.rs:63-70 `floor`. -/
def floor (f : Fraction) : Int :=
  if 0 ≤ f.num then f.num.tdiv f.den else (f.num - f.den + 1).tdiv f.den

/-- fraction.rs:75-78 `fract`. -/
def fract (f : Fraction) : Fraction := new (f.num - f.floor * f.den) f.den

/-- fraction.rs:81-83 `mul_ratio`. -/
def mulRatio (f : Fraction) (num den : Int) : Fraction := new (f.num * num) (f.den * den)

/-- fraction.rs:86-96 `From<i32>`, `From<i64>`. -/
def ofInt (n : Int) : Fraction := new n 1

/-- fraction.rs:98-104 `Add::add`. -/
def add (a b : Fraction) : Fraction := new (a.num * b.den + b.num * a.den) (a.den * b.den)

/-- fraction.rs:106-112 `Sub::sub`. -/
def sub (a b : Fraction) : Fraction := new (a.num * b.den - b.num * a.den) (a.den * b.den)

/-- fraction.rs:114-120 `Mul::mul`. -/
def mul (a b : Fraction) : Fraction := new (a.num * b.num) (a.den * b.den)

end Fraction
end Textual
