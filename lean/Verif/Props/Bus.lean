import Verif.Lemmas.Bus
import Verif.Lemmas.Check
import Verif.Props.OnOff
import Mathlib.Algebra.Order.BigOperators.Group.Finset
import Mathlib.Tactic.Positivity

/-!
# C27, C28: the balance at a bus, excess
-/

namespace Flix

variable {sys : Sys} {b : BusData} {ins outs : List Var} {o : BusOut} {σ : Assignment}

/-- **C27 (without excess).**  What enters the bus leaves it. -/
theorem C27_strict (h : busModel sys b ins outs = .ok o) (hp : b.excessPenalty = none) (hin : ∀ x ∈ ins, x.length = sys.n)
    (hout : ∀ x ∈ outs, x.length = sys.n) (hs : o.tree.Solves σ) :
    ∀ t < sys.n, (ins.map fun x => σ x.label t).sum = (outs.map fun x => σ x.label t).sum := by
  rcases ((bus_none h hp hin hout).2.2.2 σ).1 hs with ⟨rfl, rfl⟩ | h
  · simp
  · exact h

/-- **C27 (with excess).** -/
theorem C27_excess (hv : sys.Valid) {pen : Num} (h : busModel sys b ins outs = .ok o) (hp : b.excessPenalty = some pen) (hpf : pen.Fits sys.n)
    (hin : ∀ x ∈ ins, x.length = sys.n) (hout : ∀ x ∈ outs, x.length = sys.n) (hs : o.tree.Solves σ) :
    ∀ t < sys.n, (ins.map fun x => σ x.label t).sum + σ (b.label ++ "_" ++ "excess_input") t =
        (outs.map fun x => σ x.label t).sum + σ (b.label ++ "_" ++ "excess_output") t ∧
      0 ≤ σ (b.label ++ "_" ++ "excess_input") t ∧ 0 ≤ σ (b.label ++ "_" ++ "excess_output") t := by
  obtain ⟨ein, eout, f, _, _, l1, l2, _, _, _, _, _, hiff⟩ := bus_some hv h hp hpf hin hout
  obtain ⟨h1, h2, h3⟩ := (hiff σ).1 hs
  rw [l1] at h1 h3
  rw [l2] at h2 h3
  exact fun t ht => ⟨h3 t ht, h1 t ht, h2 t ht⟩

/-- **C27 (nothing else is required).**  Balanced flow rates are a solution of a bus without excess. -/
theorem C27_converse (h : busModel sys b ins outs = .ok o) (hp : b.excessPenalty = none) (hin : ∀ x ∈ ins, x.length = sys.n)
    (hout : ∀ x ∈ outs, x.length = sys.n)
    (hbal : ∀ t < sys.n, (ins.map fun x => σ x.label t).sum = (outs.map fun x => σ x.label t).sum) : o.tree.Solves σ :=
  ((bus_none h hp hin hout).2.2.2 σ).2 (Or.inr hbal)

/-- The penalty charged by a bus. -/
def busPenalty (σ : Assignment) (o : BusOut) : ℚ := (o.shares.map fun c => c.share.value σ 0).sum

/-- **C28 (charge).**  The penalty is the sum over time of price × width × excess in both directions. -/
theorem C28_charge (hv : sys.Valid) {pen : Num} (h : busModel sys b ins outs = .ok o) (hp : b.excessPenalty = some pen) (hpf : pen.Fits sys.n)
    (hin : ∀ x ∈ ins, x.length = sys.n) (hout : ∀ x ∈ outs, x.length = sys.n) (σ : Assignment) :
    (∀ c ∈ o.shares, c.target = .penalty) ∧
    busPenalty σ o = ∑ t ∈ Finset.range sys.n, pen.at t * sys.width t *
      (σ (b.label ++ "_" ++ "excess_input") t + σ (b.label ++ "_" ++ "excess_output") t) := by
  obtain ⟨ein, eout, f, _, _, l1, l2, n1, n2, _, hf, hsh, _⟩ := bus_some hv h hp hpf hin hout
  refine ⟨by rw [hsh]; simp, ?_⟩
  unfold busPenalty
  rw [hsh]
  simp only [List.map_cons, List.map_nil, List.sum_cons, List.sum_nil, ShareCall.share, Share.value, if_true, weighted, l1, l2, n1, n2, add_zero]
  rw [← Finset.sum_add_distrib]
  refine Finset.sum_congr rfl fun t ht => ?_
  rw [hf t (Finset.mem_range.1 ht), excessInL, excessOutL]
  ring

/-- **C28 (solvable).**  Whatever the flow rates are, there are excess values that make the bus solvable; and the cheapest ones
cost price × width × imbalance. -/
theorem C28_solvable (hv : sys.Valid) {pen : Num} (h : busModel sys b ins outs = .ok o) (hp : b.excessPenalty = some pen) (hpf : pen.Fits sys.n)
    (hin : ∀ x ∈ ins, x.length = sys.n) (hout : ∀ x ∈ outs, x.length = sys.n)
    (hother : ∀ x ∈ ins ++ outs, x.label ≠ b.label ++ "_" ++ "excess_input" ∧ x.label ≠ b.label ++ "_" ++ "excess_output") (σ : Assignment) :
    ∃ σ' : Assignment, o.tree.Solves σ' ∧
      (∀ l, l ≠ b.label ++ "_" ++ "excess_input" → l ≠ b.label ++ "_" ++ "excess_output" → σ' l = σ l) ∧
      busPenalty σ' o = ∑ t ∈ Finset.range sys.n, pen.at t * sys.width t *
        |(ins.map fun x => σ x.label t).sum - (outs.map fun x => σ x.label t).sum| := by
  obtain ⟨ein, eout, f, _, _, l1, l2, n1, n2, _, hf, hsh, hiff⟩ := bus_some hv h hp hpf hin hout
  have hne : excessInL b.label ≠ excessOutL b.label := by
    unfold excessInL excessOutL
    rw [String.append_assoc, String.append_assoc, ne_eq, String.append_right_inj]
    decide
  let imb : Nat → ℚ := fun t => flowSum σ ins t - flowSum σ outs t
  let σ' := (σ.set (excessInL b.label) fun t => max 0 (-imb t)).set (excessOutL b.label) fun t => max 0 (imb t)
  have hin' : ∀ t, σ' (excessInL b.label) t = max 0 (-imb t) := by
    intro t
    show ((σ.set _ _).set _ _) _ _ = _
    rw [set_other _ _ _ hne, set_same]
  have hout' : ∀ t, σ' (excessOutL b.label) t = max 0 (imb t) := by
    intro t
    show ((σ.set _ _).set _ _) _ _ = _
    rw [set_same]
  have hoth : ∀ l, l ≠ excessInL b.label → l ≠ excessOutL b.label → σ' l = σ l := by
    intro l h1 h2
    funext t
    show ((σ.set _ _).set _ _) _ _ = _
    rw [set_other _ _ _ h2, set_other _ _ _ h1]
  have hsum : ∀ xs : List Var, (∀ x ∈ xs, x ∈ ins ++ outs) → ∀ t, flowSum σ' xs t = flowSum σ xs t := by
    intro xs hxs t
    unfold flowSum
    congr 1
    apply List.map_congr_left
    intro x hx
    obtain ⟨h1, h2⟩ := hother x (hxs x hx)
    rw [hoth x.label h1 h2]
  refine ⟨σ', ?_, hoth, ?_⟩
  · rw [hiff, l1, l2]
    refine ⟨fun t _ => ?_, fun t _ => ?_, fun t _ => ?_⟩
    · rw [hin']; exact le_max_left _ _
    · rw [hout']; exact le_max_left _ _
    · rw [hin', hout', hsum ins (fun x hx => List.mem_append_left _ hx), hsum outs (fun x hx => List.mem_append_right _ hx)]
      have : imb t = flowSum σ ins t - flowSum σ outs t := rfl
      rcases le_total 0 (imb t) with hi | hi
      · rw [max_eq_left (by linarith), max_eq_right hi, this]; ring
      · rw [max_eq_right (by linarith), max_eq_left hi, this]; ring
  · rw [(C28_charge hv h hp hpf hin hout σ').2]
    refine Finset.sum_congr rfl fun t _ => ?_
    have e1 := hin' t
    have e2 := hout' t
    unfold excessInL at e1
    unfold excessOutL at e2
    rw [e1, e2]
    have : |(ins.map fun x => σ x.label t).sum - (outs.map fun x => σ x.label t).sum| = max 0 (-imb t) + max 0 (imb t) := by
      show |imb t| = _
      rcases le_total 0 (imb t) with hi | hi
      · rw [max_eq_left (by linarith), max_eq_right hi, abs_of_nonneg hi]; ring
      · rw [max_eq_right (by linarith), max_eq_left hi, abs_of_nonpos hi]; ring
    rw [this]

/-- **C28 (no cheaper way).**  In every solution the penalty is at least price × width × imbalance. -/
theorem C28_lower (hv : sys.Valid) {pen : Num} (h : busModel sys b ins outs = .ok o) (hp : b.excessPenalty = some pen) (hpf : pen.Fits sys.n)
    (hin : ∀ x ∈ ins, x.length = sys.n) (hout : ∀ x ∈ outs, x.length = sys.n) (hpos : ∀ t < sys.n, 0 ≤ pen.at t) (hs : o.tree.Solves σ) :
    ∑ t ∈ Finset.range sys.n, pen.at t * sys.width t * |(ins.map fun x => σ x.label t).sum - (outs.map fun x => σ x.label t).sum| ≤
      busPenalty σ o := by
  rw [(C28_charge hv h hp hpf hin hout σ).2]
  refine Finset.sum_le_sum fun t ht => ?_
  have ht' := Finset.mem_range.1 ht
  obtain ⟨h1, h2, h3⟩ := C27_excess hv h hp hpf hin hout hs t ht'
  have hw := hv.width_pos ht'
  refine mul_le_mul_of_nonneg_left ?_ (mul_nonneg (hpos t ht') hw.le)
  rw [abs_le]
  constructor <;> linarith

/-- **C28 (zero only if balanced).**  With positive prices the penalty is zero only if there is no excess and the flows balance
in every step. -/
theorem C28_zero (hv : sys.Valid) {pen : Num} (h : busModel sys b ins outs = .ok o) (hp : b.excessPenalty = some pen) (hpf : pen.Fits sys.n)
    (hin : ∀ x ∈ ins, x.length = sys.n) (hout : ∀ x ∈ outs, x.length = sys.n) (hpos : ∀ t < sys.n, 0 < pen.at t) (hs : o.tree.Solves σ)
    (hz : busPenalty σ o = 0) :
    ∀ t < sys.n, σ (b.label ++ "_" ++ "excess_input") t = 0 ∧ σ (b.label ++ "_" ++ "excess_output") t = 0 ∧
      (ins.map fun x => σ x.label t).sum = (outs.map fun x => σ x.label t).sum := by
  rw [(C28_charge hv h hp hpf hin hout σ).2] at hz
  have hx := C27_excess hv h hp hpf hin hout hs
  rw [Finset.sum_eq_zero_iff_of_nonneg] at hz
  · intro t ht
    have := hz t (Finset.mem_range.2 ht)
    obtain ⟨h1, h2, h3⟩ := hx t ht
    have hw := hv.width_pos ht
    have hne : pen.at t * sys.width t ≠ 0 := (mul_pos (hpos t ht) hw).ne'
    have hsum := (mul_eq_zero.1 this).resolve_left hne
    have e1 : σ (b.label ++ "_" ++ "excess_input") t = 0 := by linarith
    have e2 : σ (b.label ++ "_" ++ "excess_output") t = 0 := by linarith
    refine ⟨e1, e2, ?_⟩
    rw [e1, e2, add_zero, add_zero] at h1
    exact h1
  · intro t ht
    have ht' := Finset.mem_range.1 ht
    obtain ⟨_, h2, h3⟩ := hx t ht'
    have hw := hv.width_pos ht'
    exact mul_nonneg (mul_nonneg (hpos t ht').le hw.le) (by linarith)

/-- A bus with two entering and one leaving flow; 10 leave in each step. -/
def exV (l : String) : Var := { label := l, length := 3, lb := some (.s 0), ub := some (.s 10) }
def exBus : BusData := { label := "bus", excessPenalty := some (.v [100, 200, 100]) }
def exBusSol : Assignment := fun l t =>
  if l = "a" then [4, 10, 5].getD t 0 else if l = "b" then [6, 3, 0].getD t 0 else if l = "c" then 10
  else if l = "bus_excess_input" then [0, 0, 5].getD t 0 else if l = "bus_excess_output" then [0, 3, 0].getD t 0 else 0

example : ∃ o, busModel exSys exBus [exV "a", exV "b"] [exV "c"] = .ok o ∧ o.tree.Solves exBusSol := builds_and_solves (by decide +kernel)

example : ∃ o, busModel exSys { label := "bus", excessPenalty := none } [exV "a", exV "b"] [exV "a", exV "b"] = .ok o ∧ o.tree.Solves exBusSol :=
  builds_and_solves (by decide +kernel)

example : (Num.v [100, 200, 100]).Fits exSys.n ∧ (∀ x ∈ [exV "a", exV "b"] ++ [exV "c"], x.length = exSys.n ∧ x.label ≠ "bus" ++ "_" ++ "excess_input" ∧
    x.label ≠ "bus" ++ "_" ++ "excess_output") ∧ ∀ t < exSys.n, 0 < (Num.v [100, 200, 100]).at t := by
  refine ⟨Or.inr rfl, by simp [exV, exSys], ?_⟩
  intro t ht
  match t, ht with
  | 0, _ => norm_num [Num.at]
  | 1, _ => norm_num [Num.at]
  | 2, _ => norm_num [Num.at]

end Flix
