import Verif.Props.Run

/-!
# C109: what the solver finds before it starts
-/

namespace Flix

theorem asVectorOpt_at {b : Option Num} {n : Nat} {ys : List (Option ℚ)} (h : asVectorOpt b n = .ok ys) :
    ∀ i < n, ys[i]? = some (b.map (·.at i)) := by
  cases b with
  | none =>
    simp only [asVectorOpt, Except.ok.injEq] at h
    subst h
    intro i hi; simp [hi]
  | some a =>
    obtain ⟨_, _, h3⟩ := asVectorOpt_some h
    intro i hi
    simpa using h3 i hi

theorem toPyomo_entries {x : Var} {v : PyomoVar} (h : x.toPyomo = .ok v) : v.label = x.label ∧ ∀ i < x.length, ∃ d, v.entries[i]? = some d ∧
    (∀ a, x.fixedValue = some a → d = .fixed (a.at i)) ∧ (x.fixedValue = none → ∀ y, d ≠ .fixed y) := by
  unfold Var.toPyomo at h
  peel h with ds, hd
  simp only [except_pure, Except.ok.injEq] at h
  subst h
  refine ⟨rfl, fun i hi => ?_⟩
  unfold Var.translate at hd
  peel hd with lbv, h1
  peel hd with ubv, h2
  peel hd with fvv, h3
  have hf := mapM_ok.1 hd
  have hlen : ds.length = x.length := by rw [← hf.length_eq, List.length_range]
  have hlt : i < ds.length := by omega
  have hi' := hf.get (i := i) (by simpa using hi) hlt
  simp only [List.get_eq_getElem, List.getElem_range] at hi'
  refine ⟨ds[i], List.getElem?_eq_getElem hlt, ?_, ?_⟩
  · intro a ha
    have e := asVectorOpt_at h3 i hi
    rw [ha] at e
    simp only [pyGet, e, Option.map_some, ok_bind, except_pure, Except.ok.injEq] at hi'
    exact hi'.symm
  · intro ha y hy
    have e := asVectorOpt_at h3 i hi
    rw [ha] at e
    simp only [pyGet, e, Option.map_none, ok_bind] at hi'
    rw [hy] at hi'
    peel hi' with lb, g1
    peel hi' with ub, g2
    cases hi'

/-- **C109 (before the first run).**  A calculation whose modelling succeeds, whatever was done with it before, gives the solver a model in which every entry
of a fixed variable has its value and every other variable has none; nothing of an earlier run is left in it. -/
theorem C109_start {r : RunState} {sys : Sys} {s : System} (h : (r.model sys s).2 = none) : ∃ b p, (r.model sys s).1.made = some b ∧ b.pyomo = some p ∧
    systemModel sys s = .ok b.out ∧ translateModel b.out.solver = .ok p ∧ (∀ l, (r.model sys s).1.res l = none) ∧ (r.model sys s).1.objective = none ∧
    ∀ x ∈ b.out.solver.vars, ∀ i < x.length, (r.model sys s).1.held x.label i = x.fixedValue.map (·.at i) := by
  unfold RunState.model at h ⊢
  cases hs : systemModel sys s with
  | error e => rw [hs] at h; simp at h
  | ok o =>
    rw [hs] at h
    dsimp only at h ⊢
    cases ht : translateModel o.solver with
    | error e => rw [ht] at h; simp at h
    | ok p =>
      dsimp only
      refine ⟨⟨sys, s, o, some p⟩, p, rfl, rfl, rfl, ht, fun _ => rfl, rfl, fun x hx i hi => ?_⟩
      have hall := (translateModel_inv ht).1
      have hn := made_nodup (b := ⟨sys, s, o, some p⟩) hs
      have hfind : ∀ (vs : List Var) (ps : List PyomoVar), List.Forall₂ (fun x v => x.toPyomo = .ok v) vs ps → (vs.map (·.label)).Nodup → x ∈ vs →
          ∃ v, x.toPyomo = .ok v ∧ (ps.find? fun y => y.label = x.label) = some v := by
        intro vs ps hf
        induction hf with
        | nil => intro _ hm; simp at hm
        | @cons a v as vs ha hrest ih =>
          intro hnd hm
          obtain ⟨hl, _⟩ := toPyomo_entries ha
          rw [List.map_cons, List.nodup_cons] at hnd
          rcases List.mem_cons.1 hm with rfl | hm
          · exact ⟨v, ha, by simp [List.find?_cons, hl]⟩
          · obtain ⟨w, hw, hfw⟩ := ih hnd.2 hm
            have : v.label ≠ x.label := by
              rw [hl]; intro e
              exact hnd.1 (e ▸ List.mem_map_of_mem hm)
            exact ⟨w, hw, by simp [List.find?_cons, this, hfw]⟩
      obtain ⟨v, hv, hf⟩ := hfind _ _ hall hn hx
      obtain ⟨_, he⟩ := toPyomo_entries hv
      obtain ⟨d, hd, d1, d2⟩ := he i hi
      show p.start x.label i = _
      unfold PyomoModel.start
      rw [hf]
      simp only [Option.bind_some, hd]
      cases hfv : x.fixedValue with
      | none =>
        cases d with
        | fixed y => exact absurd rfl (d2 hfv y)
        | bounds => rfl
      | some a => rw [d1 a hfv]; rfl

/-- **C109 (where).**  An empty path saves nothing, and `True` is the path `results`: each pair of calls has the same outcome. -/
theorem C109_where (r : RunState) (name : String) (v : SolverObj) (ext : External) :
    r.solve name v (.to_ "") ext = r.solve name v .no ext ∧ r.solve name v (.to_ "results") ext = r.solve name v .yes ext := by
  have h0 : Save.dir (.to_ "") = Save.dir .no := by decide
  have h1 : Save.dir (.to_ "results") = Save.dir .yes := by decide
  have key : ∀ a b : Save, a.dir = b.dir → r.solve name v a ext = r.solve name v b ext := by
    intro a b hab
    have hp : ∀ r : RunState, r.paths name a = r.paths name b := fun r => by unfold RunState.paths; rw [hab]
    have hs : ∀ r : RunState, r.save name a = r.save name b := fun r => by unfold RunState.save; rw [hab]
    unfold RunState.solve
    rw [hp]
    simp only [hs]
  exact ⟨key _ _ h0, key _ _ h1⟩

/-- The example system, whose demand is fixed, can be modelled. -/
example : (RunState.new.model exSys exSystem).2 = none := by
  obtain ⟨o, h, hs⟩ := exSystem_ok
  obtain ⟨p, hp, -, -⟩ := C69_translated exSys_valid (by decide) exSystem_fits exSystem_tied h hs
  simp only [RunState.model, h, hp]

end Flix
