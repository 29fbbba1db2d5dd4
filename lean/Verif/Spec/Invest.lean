import Verif.Model.Invest
import Verif.Spec.Linear

/-!
# Intended meaning of investments

Stated with the arguments given by the user, without the defaulting done in the code.
-/

namespace Flix

/-- The sizes allowed for an investment that is made; `lo` is the smallest one, `big` the largest one if no maximum is given. -/
def SizeIn (q : InvestParams) (big lo s : ℚ) : Prop :=
  match q.fixedSize with
  | some v => s = v
  | none => lo ≤ s ∧ s ≤ q.maximumSize.getD big

/-- The value `r` fits to the size `s`: on the profile, or between the relative limits. -/
def RateFits (relMin relMax : Num) (profile : Option Num) (s : ℚ) (t : Nat) (r : ℚ) : Prop :=
  match profile with
  | some f => r = f.at t * s
  | none => relMin.at t * s ≤ r ∧ r ≤ relMax.at t * s

/-- No size argument is zero. -/
def InvestParams.NoZero (q : InvestParams) : Prop := q.fixedSize ≠ some 0 ∧ q.maximumSize ≠ some 0

/-- The values of a dictionary for one effect (`none`: the standard effect). -/
def EffDict.sumFor (d : EffDict) (e : Option String) : ℚ := ((d.filter fun p => p.1 = e).map (·.2.at 0)).sum

/-- All values are scalars. -/
def EffDict.Scalars (d : EffDict) : Prop := ∀ p ∈ d, p.2.isScalar = true

/-- The value of a scalar variable, 1 if there is none. -/
def scalarValue (σ : Assignment) : Option Var → ℚ
  | some x => σ x.label 0
  | none => 1

/-- What one scalar share call contributes. -/
def ShareCall.value0 (σ : Assignment) (c : ShareCall) : ℚ := c.factor.at 0 * scalarValue σ c.var

/-- What all scalar share calls to one effect contribute. -/
def contribution (σ : Assignment) (cs : List ShareCall) (e : Option String) : ℚ :=
  ((cs.filter fun c => c.effect = e).map (ShareCall.value0 σ)).sum

end Flix
