import Verif.Lemmas.Cut
import Verif.Lemmas.WindowStarts

/-! # Starts in a segment that is cut out of a solution -/

namespace Flix

variable {sys : Sys} {a k : Nat} {st : SegStart}

/-- What the code reads off the values before step `a` agrees with the states there, wherever starts cost something: no rate is exactly the smallest
one, and if the component is running so is its last flow. -/
structure Comp.ClearAt (eps : ℚ) (a : Nat) (σ : Assignment) (c : Comp) : Prop where
  flows : ∀ f ∈ c.flows, ∀ q, f.onOff = some q → q.effectsPerSwitchOn ≠ [] → a ≠ 0 → σ (rateL c.label f.label) (a - 1) ≠ eps
  comp : ∀ q, c.onOff = some q → q.effectsPerSwitchOn ≠ [] → a ≠ 0 → σ (stateL c.label) (a - 1) = 1 →
    ∀ f, c.flows.getLast? = some f → eps < σ (rateL c.label f.label) (a - 1)

/-- The starts in `τ` are those of `σ` wherever they are paid for. -/
structure Comp.CutsStarts (a k : Nat) (c : Comp) (σ τ : Assignment) : Prop where
  flows : ∀ f ∈ c.flows, ∀ q, f.onOff = some q → q.effectsPerSwitchOn ≠ [] →
    ∀ t < k, τ (startL (flowFull c.label f.label)) t = σ (startL (flowFull c.label f.label)) (a + t)
  comp : ∀ q, c.onOff = some q → q.effectsPerSwitchOn ≠ [] → ∀ t < k, τ (startL c.label) t = σ (startL c.label) (a + t)

theorem starts_cut {n : Nat} {σ τ : Assignment} {el : String} {hist histk : List ℚ} (hi : a + k ≤ n) (hw : StartsRight n σ el hist) (hk : StartsRight k τ el histk)
    (hst : ∀ t < k, τ (stateL el) t = σ (stateL el) (a + t)) (h0 : a = 0 → histk = hist)
    (hb : a ≠ 0 → ∀ last, histk.getLast? = some last → last = σ (stateL el) (a - 1)) {t : Nat} (ht : t < k) : τ (startL el) t = σ (startL el) (a + t) := by
  obtain ⟨last, l1, l2⟩ := hw
  obtain ⟨lastk, k1, k2⟩ := hk
  rw [l2 (a + t) (by omega), k2 t ht]
  have hbefore : stateBefore (τ (stateL el)) lastk t = stateBefore (σ (stateL el)) last (a + t) := by
    cases t with
    | succ i => exact hst i (by omega)
    | zero =>
      cases a with
      | zero =>
        rw [h0 rfl, l1] at k1
        cases k1
        rfl
      | succ b => exact hb (by omega) lastk k1
  have : Starts (τ (stateL el)) lastk t ↔ Starts (σ (stateL el)) last (a + t) := by
    unfold Starts
    rw [hbefore, hst t ht]
  by_cases hs : Starts (τ (stateL el)) lastk t
  · rw [if_pos hs, if_pos (this.1 hs)]
  · rw [if_neg hs, if_neg fun h => hs (this.2 h)]

theorem comp_cuts_starts (hv : sys.Valid) (hi : a + k ≤ sys.n) {c : Comp} {oc ok : CompOut} (hp : c.Proper sys) (hl : c.Local) {σ τ : Assignment}
    (hb : c.Begins a σ st) (hcl : c.ClearAt sys.cfg.eps a σ) (h : c.model sys = .ok oc) (hs : oc.tree.Solves σ)
    (hm : (c.window a k st).model (sys.window a k) = .ok ok) (hτ : ok.tree.Solves τ) (ht : c.Cuts a k σ τ) : c.CutsStarts a k σ τ := by
  have whole := anyComp_starts hv hp h hs
  have seg := anyComp_starts (valid_window hv hi) (anyComp_window_proper hp hl hi) hm hτ
  obtain ⟨v1, -, -, v4⟩ := comp_window_views a k st c
  have v2 := comp_window_flows a k st c
  have heps := hv.heps
  refine ⟨fun f hf q hq hne t htk => ?_, fun q hq hne t htk => ?_⟩
  · have hfo : f.onOff ≠ none := by rw [hq]; simp
    have hfw := seg.flows (f.window a k (st.rate c.label f.label)) (by
      rw [v2]
      exact List.mem_map.2 ⟨f, hf, rfl⟩)
    rw [v1] at hfw
    have hwo : (f.window a k (st.rate c.label f.label)).onOff ≠ none := by
      rw [flow_window_onOff, hq]
      simp
    refine starts_cut (histk := flowHistory sys.cfg.eps (st.rate c.label f.label)) hi ((whole.flows f hf).starts hfo) (hfw.starts hwo) (ht.flowOn f hf hfo)
      (fun h0 => by rw [hb.rate0 h0 f hf]) ?_ htk
    intro h0 last hlast
    rw [hb.rate h0 f hf] at hlast
    simp only [flowHistory, List.getLast?_singleton, Option.some.injEq] at hlast
    rw [← hlast]
    rcases (whole.flows f hf).state hfo (a - 1) (by omega) with ⟨a1, a2⟩ | ⟨a1, a2⟩
    · rw [a1, a2, abs_zero, if_neg (by linarith)]
    · rw [a1, if_pos]
      exact lt_of_lt_of_le (lt_of_le_of_ne a2 (Ne.symm (hcl.flows f hf q hq hne h0))) (le_abs_self _)
  · have hco : c.onOff ≠ none := by rw [hq]; simp
    have hwo : (c.window a k st).onOff ≠ none := by
      rw [v4, hq]
      simp
    obtain ⟨hist, e1, e2⟩ := whole.starts hco
    obtain ⟨histk, e3, e4⟩ := seg.starts hwo
    rw [v1] at e4
    have hfm : (c.window a k st).flows.filterMap (·.previousFlowRate) = c.flows.filterMap fun f => st.rate c.label f.label := by
      rw [v2, List.filterMap_map]
      rfl
    rw [hfm] at e3
    refine starts_cut hi e2 e4 (ht.on hco) ?_ ?_ htk
    · intro h0
      rw [List.filterMap_congr (fun f hf => hb.rate0 h0 f hf)] at e3
      rw [show (sys.window a k).cfg = sys.cfg from rfl, e1] at e3
      cases e3
      rfl
    · intro h0 last hlast
      rw [List.filterMap_congr (fun f hf => hb.rate h0 f hf)] at e3
      have h2 : c.flows.filterMap (fun f => some (Num.s (σ (rateL c.label f.label) (a - 1)))) = (c.flows.map fun f => σ (rateL c.label f.label) (a - 1)).map Num.s := by
        rw [List.map_map]
        exact congrFun (List.filterMap_eq_map' (f := Num.s ∘ fun f : FlowData => σ (rateL c.label f.label) (a - 1))) c.flows
      rw [h2] at e3
      have h3 := scalars_last e3
      have hstate := whole.state hco (a - 1) (by omega)
      rw [h3] at hlast
      by_cases hnil : c.flows = []
      · simp only [hnil, List.map_nil, if_true, List.getLast?_singleton, Option.some.injEq] at hlast
        rcases hstate with ⟨a1, -⟩ | ⟨-, a2⟩
        · rw [← hlast, a1]
        · obtain ⟨f, hf, -⟩ := a2
          rw [hnil] at hf
          cases hf
      · obtain ⟨f, hf⟩ := Option.ne_none_iff_exists'.1 (show c.flows.getLast? ≠ none by simpa using hnil)
        rw [if_neg (by simpa using hnil), List.getLast?_map, List.getLast?_map, hf] at hlast
        simp only [Option.map_some, Option.some.injEq] at hlast
        rw [← hlast, isOn_eq]
        rcases hstate with ⟨a1, a2⟩ | ⟨a1, -⟩
        · rw [a1, a2 f (List.mem_of_getLast? hf), abs_zero, if_neg]
          have : 0 < (sys.window a k).cfg.eps := heps
          linarith
        · rw [a1, if_pos]
          exact lt_of_lt_of_le (hcl.comp q hq hne h0 a1 f hf) (le_abs_self _)

end Flix
