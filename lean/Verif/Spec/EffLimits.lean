import Verif.Spec.Account
import Verif.Props.System

/-!
# Other limits of the effects
-/

namespace Flix

/-- The limits of an effect. -/
structure EffLimits where
  minOperation : Option ℚ := none
  maxOperation : Option ℚ := none
  minInvest : Option ℚ := none
  maxInvest : Option ℚ := none
  minOperationPerHour : Option Num := none
  maxOperationPerHour : Option Num := none
  minTotal : Option ℚ := none
  maxTotal : Option ℚ := none

/-- The effect with other limits. -/
def EffectData.limit (L : EffLimits) (e : EffectData) : EffectData :=
  { e with minOperation := L.minOperation, maxOperation := L.maxOperation, minInvest := L.minInvest, maxInvest := L.maxInvest, minOperationPerHour := L.minOperationPerHour,
           maxOperationPerHour := L.maxOperationPerHour, minTotal := L.minTotal, maxTotal := L.maxTotal }

/-- The flow system with the limits `L l` of the effect `l`. -/
def System.limit (L : String → EffLimits) (s : System) : System := { s with effects := s.effects.map fun e => e.limit (L e.label) }

/-- What the effect `l` amounts to in operation. -/
def operationOf (sys : Sys) (l : String) (σ : Assignment) : ℚ := ∑ t ∈ Finset.range sys.n, σ (l ++ "__operation_operation_sum_TS") t

/-- What the effect `l` amounts to by investments. -/
def investmentOf (l : String) (σ : Assignment) : ℚ := σ (l ++ "__invest_invest_sum") 0

/-- The effect `l` keeps the limits `L`. -/
structure EffLimits.Kept (sys : Sys) (L : EffLimits) (l : String) (σ : Assignment) : Prop where
  minOperation : ∀ m, L.minOperation = some m → m ≤ operationOf sys l σ
  maxOperation : ∀ m, L.maxOperation = some m → operationOf sys l σ ≤ m
  minInvest : ∀ m, L.minInvest = some m → m ≤ investmentOf l σ
  maxInvest : ∀ m, L.maxInvest = some m → investmentOf l σ ≤ m
  minPerHour : ∀ m, L.minOperationPerHour = some m → ∀ t < sys.n, m.at t * sys.dt.getD t 0 ≤ σ (l ++ "__operation_operation_sum_TS") t
  maxPerHour : ∀ m, L.maxOperationPerHour = some m → ∀ t < sys.n, σ (l ++ "__operation_operation_sum_TS") t ≤ m.at t * sys.dt.getD t 0
  minTotal : ∀ m, L.minTotal = some m → m ≤ operationOf sys l σ + investmentOf l σ
  maxTotal : ∀ m, L.maxTotal = some m → operationOf sys l σ + investmentOf l σ ≤ m

/-- All effects keep their limits. -/
def System.Keeps (sys : Sys) (L : String → EffLimits) (s : System) (σ : Assignment) : Prop := ∀ e ∈ s.effects, (L e.label).Kept sys e.label σ

/-- The limits `L'` are at least as tight as `L`. -/
structure EffLimits.Tighter (n : Nat) (L' L : EffLimits) : Prop where
  minOperation : ∀ m, L.minOperation = some m → ∃ m', L'.minOperation = some m' ∧ m ≤ m'
  maxOperation : ∀ m, L.maxOperation = some m → ∃ m', L'.maxOperation = some m' ∧ m' ≤ m
  minInvest : ∀ m, L.minInvest = some m → ∃ m', L'.minInvest = some m' ∧ m ≤ m'
  maxInvest : ∀ m, L.maxInvest = some m → ∃ m', L'.maxInvest = some m' ∧ m' ≤ m
  minPerHour : ∀ m, L.minOperationPerHour = some m → ∃ m', L'.minOperationPerHour = some m' ∧ ∀ t < n, m.at t ≤ m'.at t
  maxPerHour : ∀ m, L.maxOperationPerHour = some m → ∃ m', L'.maxOperationPerHour = some m' ∧ ∀ t < n, m'.at t ≤ m.at t
  minTotal : ∀ m, L.minTotal = some m → ∃ m', L'.minTotal = some m' ∧ m ≤ m'
  maxTotal : ∀ m, L.maxTotal = some m → ∃ m', L'.maxTotal = some m' ∧ m' ≤ m

/-- A flow system under the limits `L` and under the limits `L'` of its effects. -/
structure Relimited (sys : Sys) (s : System) (L L' : String → EffLimits) (o o' : SysOut) : Prop where
  valid : sys.Valid
  steps : sys.n ≠ 0
  fits : (s.limit L).Fits sys.n
  fits' : (s.limit L').Fits sys.n
  model : systemModel sys (s.limit L) = .ok o
  model' : systemModel sys (s.limit L') = .ok o'

end Flix
