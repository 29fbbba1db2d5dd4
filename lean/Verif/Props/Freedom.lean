import Verif.Props.Converters
import Mathlib.LinearAlgebra.FiniteDimensional.Lemmas
import Mathlib.LinearAlgebra.Dimension.Constructions

/-!
# C80: what the checks of a converter make sure of
-/

namespace Flix

/-- **C80 (exactly when).**  A converter is accepted exactly when it has either conversion factors or segments and not both, fewer
conversion equations than flows, factors for its own flows only, and with segments no flow with a size that is still to be decided. -/
theorem C80_check (c : ConvData) :
    c.check = .ok () ↔
      (c.factors ≠ [] ↔ c.segments = []) ∧
      (c.factors ≠ [] → c.factors.length < c.comp.inputs.length + c.comp.outputs.length) ∧
      (∀ fs ∈ c.factors, ∀ q ∈ fs, ∃ f ∈ c.comp.inputs ++ c.comp.outputs, f.label = q.1) ∧
      (c.segments ≠ [] → ∀ f ∈ c.comp.inputs ++ c.comp.outputs, ∀ q : InvestParams, f.size = .invest q → q.fixedSize ≠ none) := by
  have hany : (∀ fs ∈ c.factors, ∀ q ∈ fs, ∃ f ∈ c.comp.inputs ++ c.comp.outputs, f.label = q.1) ↔
      (c.factors.any (fun fs => fs.any fun q => !((c.comp.inputs ++ c.comp.outputs).any fun f => f.label == q.1))) = false := by
    rw [List.any_eq_false]
    refine forall₂_congr fun fs _ => ?_
    rw [Bool.not_eq_true, List.any_eq_false]
    refine forall₂_congr fun q _ => ?_
    rw [Bool.not_eq_true, Bool.not_eq_false', List.any_eq_true]
    simp only [beq_iff_eq]
  have hsize : (∀ f ∈ c.comp.inputs ++ c.comp.outputs, ∀ q : InvestParams, f.size = .invest q → q.fixedSize ≠ none) ↔
      ((c.comp.inputs ++ c.comp.outputs).any (fun f => match f.size with | .invest q => q.fixedSize.isNone | _ => false)) = false := by
    rw [List.any_eq_false]
    refine forall₂_congr fun f _ => ?_
    cases hs : f.size with
    | unset => simp
    | num x => simp
    | invest q => simp [Option.isNone_iff_eq_none]
  rw [hany, hsize]
  unfold ConvData.check
  simp only [List.length_append]
  generalize (c.factors.any (fun fs => fs.any fun q => !((c.comp.inputs ++ c.comp.outputs).any fun f => f.label == q.1))) = A
  generalize ((c.comp.inputs ++ c.comp.outputs).any (fun f => match f.size with | .invest q => q.fixedSize.isNone | _ => false)) = B
  have hF : c.factors.isEmpty = true ↔ c.factors = [] := List.isEmpty_iff
  have hG : c.segments.isEmpty = true ↔ c.segments = [] := List.isEmpty_iff
  have hlen : c.factors = [] → c.factors.length = 0 := fun h => by rw [h]; rfl
  by_cases hf : c.factors = [] <;> by_cases hg : c.segments = [] <;>
    by_cases hl : c.comp.inputs.length + c.comp.outputs.length ≤ c.factors.length <;> cases A <;> cases B <;>
    simp_all [List.isEmpty_iff]

theorem rateL_flow {comp a b : String} (h : rateL comp a = rateL comp b) : a = b := by
  unfold rateL at h
  have h' := congrArg String.toList h
  simp only [String.toList_append, List.append_assoc, List.append_cancel_left_eq] at h'
  have := List.append_cancel_right h'
  exact String.toList_inj.1 this

/-- Labelled values as an assignment of flow rates. -/
theorem rates_exist {comp : String} {fl : List (ℚ × FlowData)} (hnd : (fl.map (·.2.label)).Nodup) (x : Nat → Fin fl.length → ℚ) :
    ∃ σ : Assignment, ∀ t i, σ (rateL comp (fl[i]).2.label) t = x t i := by
  refine ⟨fun l t => if h : ∃ i : Fin fl.length, rateL comp (fl[i]).2.label = l then x t h.choose else 0, fun t i => ?_⟩
  have h : ∃ j : Fin fl.length, rateL comp (fl[j]).2.label = rateL comp (fl[i]).2.label := ⟨i, rfl⟩
  show (if h : ∃ j : Fin fl.length, rateL comp (fl[j]).2.label = rateL comp (fl[i]).2.label then x t h.choose else 0) = x t i
  rw [dif_pos h]
  have e := rateL_flow h.choose_spec
  congr 1
  have := (List.nodup_iff_injective_getElem.1 hnd)
  have hinj : Function.Injective fun j : Fin fl.length => (fl[j]).2.label := by
    intro a b hab
    have := @this ⟨a, by simp⟩ ⟨b, by simp⟩ (by simpa using hab)
    simpa [Fin.ext_iff] using this
  exact hinj e

/-- The factor of a flow at a step, 0 without factor. -/
def factorAt (fs : Factors) (t : Nat) (f : FlowData) : ℚ := ((fs.get f.label).map fun φ => φ.at t).getD 0

theorem sum_getElem {α : Type} (l : List α) (g : α → ℚ) : (l.map g).sum = ∑ i : Fin l.length, g l[i] := by
  rw [← List.sum_ofFn]
  congr 1
  exact (List.ext_getElem (by simp) (by simp)).symm

theorem sum_map_neg' {α : Type} (l : List α) (g : α → ℚ) : (l.map fun a => -g a).sum = -(l.map g).sum := by
  induction l with
  | nil => simp
  | cons a l ih => simp only [List.map_cons, List.sum_cons, ih]; ring

/-- **C80 (a degree of freedom is left).**  The conversion equations of an accepted converter with conversion factors always leave a
degree of freedom: flow rates that are not all 0, in every step, satisfy all of them. -/
theorem C80_freedom {c : ConvData} (h : c.check = .ok ()) (hne : c.factors ≠ []) (hnd : ((c.comp.inputs ++ c.comp.outputs).map (·.label)).Nodup) :
    ∃ σ : Assignment, ∀ t, (∃ f ∈ c.comp.inputs ++ c.comp.outputs, σ (rateL c.comp.label f.label) t ≠ 0) ∧
      ∀ fs ∈ c.factors, convSide σ c.comp.label c.comp.inputs fs t = convSide σ c.comp.label c.comp.outputs fs t := by
  have hlt := ((C80_check c).1 h).2.1 hne
  let fl : List (ℚ × FlowData) := c.comp.inputs.map (fun f => (1, f)) ++ c.comp.outputs.map (fun f => (-1, f))
  have hfl : fl.map (·.2) = c.comp.inputs ++ c.comp.outputs := by simp [fl, Function.comp_def]
  have hnd' : (fl.map (·.2.label)).Nodup := by
    have : fl.map (·.2.label) = (fl.map (·.2)).map (·.label) := by rw [List.map_map]; rfl
    rw [this, hfl]; exact hnd
  have hlen : c.factors.length < fl.length := by simpa [fl] using hlt
  have hsol : ∀ t : Nat, ∃ x : Fin fl.length → ℚ, x ≠ 0 ∧ ∀ fs ∈ c.factors,
      ∑ i : Fin fl.length, fl[i].1 * factorAt fs t fl[i].2 * x i = 0 := by
    intro t
    let F : (Fin fl.length → ℚ) →ₗ[ℚ] (Fin c.factors.length → ℚ) :=
      LinearMap.pi fun e => ∑ i : Fin fl.length, (fl[i].1 * factorAt c.factors[e] t fl[i].2) • LinearMap.proj i
    have hk : LinearMap.ker F ≠ ⊥ := LinearMap.ker_ne_bot_of_finrank_lt (by simpa using hlen)
    obtain ⟨x, hx, hx0⟩ := (Submodule.ne_bot_iff _).1 hk
    refine ⟨x, hx0, fun fs hfs => ?_⟩
    obtain ⟨e, he, rfl⟩ := List.getElem_of_mem hfs
    have := congrFun (LinearMap.mem_ker.1 hx) ⟨e, he⟩
    simp only [F, LinearMap.pi_apply, LinearMap.sum_apply, LinearMap.smul_apply, LinearMap.proj_apply, smul_eq_mul] at this
    exact this
  choose x hx0 hx using hsol
  obtain ⟨σ, hσ⟩ := rates_exist (comp := c.comp.label) hnd' x
  refine ⟨σ, fun t => ⟨?_, fun fs hfs => ?_⟩⟩
  · obtain ⟨i, hi⟩ := Function.ne_iff.1 (hx0 t)
    refine ⟨(fl[i]).2, ?_, ?_⟩
    · rw [← hfl]; exact List.mem_map_of_mem (List.getElem_mem _)
    · rw [hσ]; exact hi
  · have key := hx t fs hfs
    have e1 : convSide σ c.comp.label c.comp.inputs fs t - convSide σ c.comp.label c.comp.outputs fs t =
        ∑ i : Fin fl.length, fl[i].1 * factorAt fs t fl[i].2 * σ (rateL c.comp.label (fl[i]).2.label) t := by
      rw [← sum_getElem fl fun q => q.1 * factorAt fs t q.2 * σ (rateL c.comp.label q.2.label) t]
      simp only [fl, List.map_append, List.map_map, List.sum_append, Function.comp_def, one_mul, neg_mul, sum_map_neg']
      rw [← sub_eq_add_neg]
      rfl
    have : convSide σ c.comp.label c.comp.inputs fs t - convSide σ c.comp.label c.comp.outputs fs t = 0 := by
      rw [e1, ← key]
      exact Finset.sum_congr rfl fun i _ => by rw [hσ]
    linarith

/-- As many equations as flows. -/
def exStuck : ConvData where
  comp := { label := "Block", inputs := [{ label := "in" }], outputs := [{ label := "out" }] }
  factors := [[("in", .s 1), ("out", .s 1)], [("in", .s 1), ("out", .s 2)]]

/-- **C80 (why it is needed).**  With as many equations as flows, which the checks refuse, the flows may be forced to 0. -/
theorem C80_needed : exStuck.check = .error .exception ∧ ∀ (σ : Assignment) (t : Nat),
    (∀ fs ∈ exStuck.factors, convSide σ "Block" exStuck.comp.inputs fs t = convSide σ "Block" exStuck.comp.outputs fs t) →
    σ (rateL "Block" "in") t = 0 ∧ σ (rateL "Block" "out") t = 0 := by
  refine ⟨by decide +kernel, fun σ t h => ?_⟩
  have h1 := h _ (List.mem_cons_self ..)
  have h2 := h _ (List.mem_cons_of_mem _ (List.mem_cons_self ..))
  simp [exStuck, convSide, Factors.get, Num.at] at h1 h2
  constructor <;> linarith

/-- A CHP plant. -/
def exFreeChp : ConvData := chp "CHP" (.s (1 / 2)) (.v [2 / 5, 3 / 10, 2 / 5]) { label := "Q_fu" } { label := "P_el" } { label := "Q_th" } none

theorem exFreeChp_check : exFreeChp.check = .ok () := by decide +kernel

example := C80_freedom exFreeChp_check (by decide +kernel) (by decide +kernel)

end Flix
