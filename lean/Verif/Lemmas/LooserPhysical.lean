import Verif.Lemmas.LooserSystem

/-! # Looser declarations: flows, states, sizes and excess -/

namespace Flix

variable {sys : Sys} {s s' : System} {o o' : SysOut}

/-- The values of `σ`, without excess at the buses of `s'` that allowed none in `s`. -/
noncomputable def withoutExcess (s s' : System) (σ : Assignment) : Assignment := by
  classical
  exact fun l t => if (∃ b' ∈ s'.buses, b'.excessPenalty ≠ none ∧ (∀ b ∈ s.buses, b.label = b'.label → b.excessPenalty = none) ∧
    (l = b'.label ++ "_" ++ "excess_input" ∨ l = b'.label ++ "_" ++ "excess_output")) then 0 else σ l t

/-- What a solution says about components and buses remains possible, and the penalties do not grow. -/
theorem looser_physical (hv : sys.Valid) (hpd : sys.prevDt.Nonneg) (hn : sys.n ≠ 0) (hf : s.Fits sys.n) (hf' : s'.Fits sys.n) (hp : ∀ c ∈ s.comps, c.Proper sys ∧ c.CapacityNonneg)
    (hp' : ∀ c ∈ s'.comps, c.Proper sys ∧ c.CapacityNonneg) (hb : (s.buses.map (·.label)).Nodup) (h : systemModel sys s = .ok o) (h' : systemModel sys s' = .ok o')
    (hl : s.Freer sys.cfg.big sys.n s') {σ : Assignment} (hs : o.solver.Solves σ) :
    ∃ τ : Assignment, (∀ oc ∈ o'.comps, oc.tree.Solves τ) ∧ (∀ b ∈ s'.buses, s'.BusOk sys τ b) ∧ (∀ oc ∈ o'.comps, ∀ x, oc.tree.HasVar x → σ x.label = τ x.label) ∧
      (∀ a f : String, τ (a ++ "__" ++ f ++ "_" ++ "flow_rate") = σ (a ++ "__" ++ f ++ "_" ++ "flow_rate")) ∧
      (List.Forall₂ (BusData.Looser sys.n) s.buses s'.buses → ∀ σ' : Assignment, (∀ b ∈ s'.buses, b.excessPenalty ≠ none → σ' (b.label ++ "_" ++ "excess_input") = τ (b.label ++ "_" ++ "excess_input") ∧
        σ' (b.label ++ "_" ++ "excess_output") = τ (b.label ++ "_" ++ "excess_output")) →
        (s'.buses.map fun b => b.penaltyCost sys σ').sum ≤ (s.buses.map fun b => b.penaltyCost sys σ).sum) := by
  obtain ⟨_, s2, s3⟩ := (system_solves h σ).1 hs
  have hbus := (buses_iff hv hf h σ).1 s3
  have hw : ∀ t < sys.n, 0 ≤ sys.dt.getD t 0 := by
    intro t ht
    rw [List.getD_eq_getElem?_getD, List.getElem?_eq_getElem (by rw [hv.hdt]; exact ht), Option.getD_some]
    exact (hv.hpos _ (List.getElem_mem _)).le
  let τ := withoutExcess s s' σ
  -- the values of the components are those of `σ`
  have keep : ∀ oc ∈ o'.comps, ∀ x, oc.tree.HasVar x → σ x.label = τ x.label := by
    intro oc hoc x hx
    funext t
    show _ = withoutExcess s s' σ x.label t
    unfold withoutExcess
    rw [if_neg]
    rintro ⟨b', hb', hpen, _, hlab⟩
    obtain ⟨n1, n2⟩ := comp_not_excess hv hf' h' hb' hpen hoc hx
    rcases hlab with e | e
    · exact n1 e
    · exact n2 e
  have keepR : ∀ a : String, ∀ f : String, τ (a ++ "__" ++ f ++ "_" ++ "flow_rate") = σ (a ++ "__" ++ f ++ "_" ++ "flow_rate") := by
    intro a f
    funext t
    show withoutExcess s s' σ _ t = _
    unfold withoutExcess
    rw [if_neg]
    rintro ⟨b', _, _, _, hlab⟩
    rcases hlab with e | e
    · exact (rate_ne_excess a f b'.label).1 e
    · exact (rate_ne_excess a f b'.label).2 e
  have hc : ∀ oc ∈ o'.comps, oc.tree.Solves τ := by
    intro oc' hoc'
    obtain ⟨c', hc', hm'⟩ := forall₂_mem_right (system_inv h').1 hoc'
    obtain ⟨c, hc, hcl⟩ := forall₂_mem_right hl.comps hc'
    obtain ⟨oc, hoc, hm⟩ := forall₂_mem_left (system_inv h).1 hc
    have sol := anyComp_looser (σ := σ) hv hpd hn (hp c hc).1 (hp' c' hc').1 (hp c hc).2 (hp' c' hc').2 hm hm' hcl (s2 oc hoc)
    exact solves_congr (vars_hasVar _) (model_refs hm' (vars_hasVar _)).1 (fun x hx => keep oc' hoc' x hx) sol
  have flows : ∀ b t, fedInto τ s' b t = fedInto σ s b t ∧ takenFrom τ s' b t = takenFrom σ s b t := by
    intro b t
    rw [← (fed_looser hl b t).1, ← (fed_looser hl b t).2]
    unfold fedInto takenFrom
    simp only [keepR, and_self]
  -- the excess
  have exS : ∀ b ∈ s.buses, b.excessPenalty ≠ none → τ (b.label ++ "_" ++ "excess_input") = σ (b.label ++ "_" ++ "excess_input") ∧ τ (b.label ++ "_" ++ "excess_output") = σ (b.label ++ "_" ++ "excess_output") := by
    intro b hbm hpen
    have cancel : ∀ x y z : String, y ++ "_" ++ x = z ++ "_" ++ x → y = z := by
      intro x y z e
      have := congrArg String.toList e
      simp only [String.toList_append, List.append_assoc, List.append_cancel_right_eq] at this
      exact String.ext this
    have no : ∀ l, (l = b.label ++ "_" ++ "excess_input" ∨ l = b.label ++ "_" ++ "excess_output") → ¬ ∃ b' ∈ s'.buses, b'.excessPenalty ≠ none ∧ (∀ b ∈ s.buses, b.label = b'.label → b.excessPenalty = none) ∧
        (l = b'.label ++ "_" ++ "excess_input" ∨ l = b'.label ++ "_" ++ "excess_output") := by
      rintro l hlab ⟨b', _, _, hall, hlab'⟩
      have : b.label = b'.label := by
        rcases hlab with rfl | rfl <;> rcases hlab' with e | e
        · exact cancel _ _ _ e
        · exact absurd e (in_ne_out _ _)
        · exact absurd e.symm (in_ne_out _ _)
        · exact cancel _ _ _ e
      exact hpen (hall b hbm this)
    constructor <;> funext t
    · show withoutExcess s s' σ _ t = _
      unfold withoutExcess
      rw [if_neg (no _ (.inl rfl))]
    · show withoutExcess s s' σ _ t = _
      unfold withoutExcess
      rw [if_neg (no _ (.inr rfl))]
  have exN : ∀ b ∈ s.buses, ∀ b' ∈ s'.buses, b.Freer b' → b.excessPenalty = none → b'.excessPenalty ≠ none → ∀ t, τ (b.label ++ "_" ++ "excess_input") t = 0 ∧ τ (b.label ++ "_" ++ "excess_output") t = 0 := by
    intro b hbm b' hbm' hbl hpen hpen' t
    have yes : ∀ l, (l = b.label ++ "_" ++ "excess_input" ∨ l = b.label ++ "_" ++ "excess_output") → ∃ b' ∈ s'.buses, b'.excessPenalty ≠ none ∧ (∀ b ∈ s.buses, b.label = b'.label → b.excessPenalty = none) ∧
        (l = b'.label ++ "_" ++ "excess_input" ∨ l = b'.label ++ "_" ++ "excess_output") := by
      intro l hlab
      refine ⟨b', hbm', hpen', fun c hcm hcl => ?_, by rw [hbl.label]; exact hlab⟩
      rw [hbl.label] at hcl
      rw [List.inj_on_of_nodup_map hb hcm hbm hcl]
      exact hpen
    constructor
    · show withoutExcess s s' σ _ t = _
      unfold withoutExcess
      rw [if_pos (yes _ (.inl rfl))]
    · show withoutExcess s s' σ _ t = _
      unfold withoutExcess
      rw [if_pos (yes _ (.inr rfl))]
  have hbus' : ∀ b ∈ s'.buses, s'.BusOk sys τ b := by
    intro b' hbm'
    obtain ⟨b, hbm, hbl⟩ := forall₂_mem_right hl.buses hbm'
    obtain ⟨g1, g2⟩ := hbus b hbm
    unfold System.BusOk
    rw [hbl.label]
    refine ⟨fun hpen t ht => ?_, fun hpen t ht => ?_⟩
    · rw [(flows _ t).1, (flows _ t).2]
      refine g1 ?_ t ht
      cases hq : b.excessPenalty with
      | none => rfl
      | some p => exact absurd hpen (hbl.allowed (by rw [hq]; simp))
    · rw [(flows _ t).1, (flows _ t).2]
      by_cases hq : b.excessPenalty = none
      · rw [(exN b hbm b' hbm' hbl hq hpen t).1, (exN b hbm b' hbm' hbl hq hpen t).2]
        exact ⟨le_rfl, le_rfl, by rw [add_zero, add_zero]; exact g1 hq t ht⟩
      · rw [(exS b hbm hq).1, (exS b hbm hq).2]
        exact g2 hq t ht
  refine ⟨τ, hc, hbus', keep, keepR, fun hbl σ' hx => ?_⟩
  have pen : ∀ b ∈ s.buses, ∀ b' ∈ s'.buses, b.Looser sys.n b' → b'.penaltyCost sys σ' ≤ b.penaltyCost sys σ := by
    intro b hbm b' hbm' hbl
    unfold BusData.penaltyCost
    cases hq' : b'.excessPenalty with
    | none =>
      cases hq : b.excessPenalty with
      | none => exact le_rfl
      | some p =>
        obtain ⟨p', e, _⟩ := hbl.penalty p hq
        rw [e] at hq'
        cases hq'
    | some p' =>
      obtain ⟨x1, x2⟩ := hx b' hbm' (by simp [hq'])
      simp only
      rw [hbl.label] at x1 x2 ⊢
      rw [x1, x2]
      cases hq : b.excessPenalty with
      | none =>
        simp only
        refine (Finset.sum_eq_zero fun t _ => ?_).le
        obtain ⟨z1, z2⟩ := exN b hbm b' hbm' ⟨hbl.label, fun hne => absurd hq hne⟩ hq (by simp [hq']) t
        rw [z1, z2]
        ring
      | some p =>
        obtain ⟨p'', e, hle⟩ := hbl.penalty p hq
        rw [hq'] at e
        cases e
        have hne : b.excessPenalty ≠ none := by simp [hq]
        simp only
        rw [(exS b hbm hne).1, (exS b hbm hne).2]
        refine Finset.sum_le_sum fun t ht => ?_
        have ht := Finset.mem_range.1 ht
        obtain ⟨y1, y2, _⟩ := (hbus b hbm).2 hne t ht
        exact mul_le_mul_of_nonneg_right (mul_le_mul_of_nonneg_right (hle t ht) (hw t ht)) (add_nonneg y1 y2)
  have : ∀ {bs bs' : List BusData}, (∀ b ∈ bs, b ∈ s.buses) → (∀ b ∈ bs', b ∈ s'.buses) → List.Forall₂ (BusData.Looser sys.n) bs bs' →
      (bs'.map fun b => b.penaltyCost sys σ').sum ≤ (bs.map fun b => b.penaltyCost sys σ).sum := by
    intro bs bs' m m' hbs
    induction hbs with
    | nil => exact le_rfl
    | cons a _ ih =>
      rw [List.map_cons, List.map_cons, List.sum_cons, List.sum_cons]
      exact add_le_add (pen _ (m _ List.mem_cons_self) _ (m' _ List.mem_cons_self) a) (ih (fun b hb => m b (List.mem_cons_of_mem _ hb)) fun b hb => m' b (List.mem_cons_of_mem _ hb))
  exact this (fun _ h => h) (fun _ h => h) hbl

end Flix
