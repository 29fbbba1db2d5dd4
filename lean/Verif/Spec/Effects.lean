import Verif.Model.Effects
import Verif.Spec.Linear
import Mathlib.Algebra.BigOperators.Group.Finset.Basic

/-!
# Intended meaning of shares and effects
-/

namespace Flix

/-- Sum over all entries of a variable, weighted. -/
def weighted (f : Num) (x : Nat → ℚ) (n : Nat) : ℚ := ∑ k ∈ Finset.range n, f.at k * x k

/-- The contribution of a share: at time `t`, or in total if it is summed up.  Variables of length 1 count in every step. -/
def Share.value (σ : Assignment) (c : Share) (t : Nat) : ℚ :=
  match c.var with
  | none => if c.asSum then ∑ k ∈ Finset.range c.factor.len, c.factor.at k else c.factor.at t
  | some x => if c.asSum then weighted c.factor (σ x.label) x.length
      else c.factor.at t * σ x.label (if x.length = 1 then 0 else t)

/-- The shapes for which a share is meant: a summed variable with a factor per entry; a scalar with a scalar factor; and, for
allocations over time, a variable and a factor over time. -/
def Share.WellFormed (isTS : Bool) (n : Nat) (c : Share) : Prop :=
  match c.var with
  | none => c.asSum = false → c.factor.isScalar = true
  | some x => (c.asSum = true ∧ (c.factor.isScalar = true ∨ c.factor.len = x.length)) ∨
      (c.asSum = false ∧ x.length = 1 ∧ c.factor.len = 1 ∧ (c.factor.isScalar = true ∨ n = 1)) ∨
      (c.asSum = false ∧ isTS = true ∧ x.length = n ∧ (c.factor.isScalar = true ∨ c.factor.len = n))

/-- The share counts in the total and not in the single steps: because it is summed up, or because there are no steps. -/
def Share.inTotal (isTS : Bool) (c : Share) : Bool := !(isTS && !c.asSum)

/-- What a share allocation says: every time step collects its shares, the total collects the time steps and the shares that
are summed up. -/
structure Allocates (σ : Assignment) (isTS : Bool) (n : Nat) (sum : Nat → ℚ) (ts : Option (Nat → ℚ)) (calls : List Share) : Prop where
  step : ∀ x, ts = some x → ∀ t < n, x t = ((calls.filter fun c => !c.inTotal isTS).map fun c => c.value σ t).sum
  total : sum 0 = (match ts with | some x => ∑ t ∈ Finset.range n, x t | none => 0) +
    ((calls.filter (Share.inTotal isTS)).map fun c => c.value σ 0).sum

/-! ## Effects

The reported variables of the effect `l`. -/

def opSumL (l : String) : String := l ++ "__operation_operation_sum"
def opTSL (l : String) : String := l ++ "__operation_operation_sum_TS"
def invSumL (l : String) : String := l ++ "__invest_invest_sum"
def allSumL (l : String) : String := l ++ "__all_all_sum"
def penaltyL : String := "Effects__penalty_penalty_sum"

/-- The share of a call. -/
def ShareCall.share (c : ShareCall) : Share := ⟨c.name, c.var, c.factor, c.asSum⟩

/-- The call contributes to the given part of the effect `l`; without an effect it goes to the standard effect. -/
def ShareCall.goesTo (es : List EffectData) (t : Target) (l : String) (c : ShareCall) : Bool :=
  decide (c.target = t) && (match c.effect with
    | some e => decide (e = l)
    | none => match es.find? (·.isStandard) with | some e => decide (e.label = l) | none => false)

/-- All contributions of elements to one part of the effect `l` (at time `t` for the operation). -/
def direct (σ : Assignment) (es : List EffectData) (calls : List ShareCall) (tg : Target) (l : String) (t : Nat) : ℚ :=
  ((calls.filter (ShareCall.goesTo es tg l)).map fun c => c.share.value σ t).sum

/-- Contributions of other effects to the operation of the effect `l`. -/
def fromOthersOp (σ : Assignment) (es : List EffectData) (l : String) (t : Nat) : ℚ :=
  (es.map fun o => ((o.shareOperation.filter fun q => q.1 = l).map fun q => q.2.at t * σ (opTSL o.label) t).sum).sum

/-- Contributions of other effects to the investment part of the effect `l`. -/
def fromOthersInv (σ : Assignment) (es : List EffectData) (l : String) : ℚ :=
  (es.map fun o => ((o.shareInvest.filter fun q => q.1 = l).map fun q => q.2.at 0 * σ (invSumL o.label) 0).sum).sum

/-- The shapes of the contributions produced by elements. -/
def ShareCall.WellFormed (n : Nat) (c : ShareCall) : Prop :=
  match c.target with
  | .operation => c.asSum = false ∧ c.share.WellFormed true n
  | .invest => c.asSum = false ∧ c.share.WellFormed false n
  | .penalty => c.asSum = true ∧ c.share.WellFormed false n

/-- The shapes of the arguments of an effect. -/
structure EffectData.Fits (n : Nat) (e : EffectData) : Prop where
  op : ∀ q ∈ e.shareOperation, q.2.isScalar = true ∨ q.2.len = n
  inv : ∀ q ∈ e.shareInvest, q.2.isScalar = true
  minH : ∀ m, e.minOperationPerHour = some m → m.isScalar = true ∨ m.len = n
  maxH : ∀ m, e.maxOperationPerHour = some m → m.isScalar = true ∨ m.len = n

end Flix
