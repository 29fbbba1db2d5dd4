import Verif.Spec.Dearer
import Verif.Props.Penalties

/-!
# C123: dearer excess is used less
-/

namespace Flix

variable {sys : Sys} {s s' : System} {o o' : SysOut}

/-- What excess costs in total. -/
def System.bill (sys : Sys) (s : System) (σ : Assignment) : ℚ := (s.buses.map fun b => b.penaltyCost sys σ).sum

theorem penaltyCost_eq (b : BusData) (σ : Assignment) : b.penaltyCost sys σ = ∑ t ∈ Finset.range sys.n, b.penaltyAt t * (if b.excessPenalty = none then 0 else
    sys.dt.getD t 0 * (σ (b.label ++ "_" ++ "excess_input") t + σ (b.label ++ "_" ++ "excess_output") t)) := by
  unfold BusData.penaltyCost BusData.penaltyAt
  cases b.excessPenalty with
  | none => simp
  | some p =>
    refine Finset.sum_congr rfl fun t _ => ?_
    rw [if_neg (by simp), mul_assoc]

theorem bill_kept (hv : sys.Valid) (hf : s.Fits sys.n) (h : systemModel sys s = .ok o) {σ σ' : Assignment} (g : ∀ l, l ∉ o.coll.tree.labels → σ' l = σ l) :
    s.bill sys σ' = s.bill sys σ := by
  refine congrArg List.sum (List.map_congr_left fun b hb => ?_)
  rw [penaltyCost_eq, penaltyCost_eq]
  by_cases e : b.excessPenalty = none
  · simp only [if_pos e]
  · obtain ⟨x1, x2⟩ := excess_outside hv hf h hb e
    simp only [if_neg e, g _ x1, g _ x2]

/-- Every solution is one under other penalties, with the same costs apart from the penalties. -/
theorem other_penalties (hv : sys.Valid) (hn : sys.n ≠ 0) (hf : s.Fits sys.n) (hf' : s'.Fits sys.n) (h : systemModel sys s = .ok o) (h' : systemModel sys s' = .ok o')
    (hsame : s.OnlyPenalties s') : ∃ t₁ t₂, objectiveTerms o.solver.objective = .ok t₁ ∧ objectiveTerms o'.solver.objective = .ok t₂ ∧
      ∀ σ, o.solver.Solves σ → ∃ σ', o'.solver.Solves σ' ∧ (∀ l, l ∉ o'.coll.tree.labels → σ' l = σ l) ∧ termsVal σ' t₂ = termsVal σ t₁ - s.bill sys σ + s'.bill sys σ := by
  obtain ⟨t₁, e, ht, he, hc⟩ := solution_cost hv hn hf h
  obtain ⟨t₂, e', ht', he', hc'⟩ := solution_cost hv hn hf' h'
  have hee : e' = e := by
    rw [hsame.effects, he] at he'
    exact (Option.some.inj he').symm
  subst hee
  refine ⟨t₁, t₂, ht, ht', fun σ hσ => ?_⟩
  have hb := (buses_iff hv hf h σ).1 ((system_solves h σ).1 hσ).2.2
  obtain ⟨σ', p1, p2, p3⟩ := other_buses hv hn hf hf' h h' hsame.effects hsame.comps hσ (τ := σ) (fun _ _ _ _ => rfl) (busOk_same hsame hb)
  refine ⟨σ', p1, p2, ?_⟩
  have e1 := p3 e' (List.mem_of_find?_eq_some he)
  have e2 := bill_kept hv hf' h' p2
  rw [hc σ hσ, hc' σ' p1]
  unfold System.cost
  unfold System.ownCost at e1
  unfold System.bill at *
  linarith

/-- **C123.**  What excess costs more under the second penalties than under the first is, for a cheapest solution under the second, at most what it is for a cheapest solution under the
first. -/
theorem C123 (hv : sys.Valid) (hn : sys.n ≠ 0) (hf : s.Fits sys.n) (hf' : s'.Fits sys.n) (h : systemModel sys s = .ok o) (h' : systemModel sys s' = .ok o')
    (hsame : s.OnlyPenalties s') {σ σ' : Assignment} (ho : o.Optimal σ) (ho' : o'.Optimal σ') :
    (s'.buses.map fun b => b.penaltyCost sys σ').sum - (s.buses.map fun b => b.penaltyCost sys σ').sum ≤
      (s'.buses.map fun b => b.penaltyCost sys σ).sum - (s.buses.map fun b => b.penaltyCost sys σ).sum := by
  obtain ⟨t₁, t₂, e1, e2, move⟩ := other_penalties hv hn hf hf' h h' hsame
  obtain ⟨t₂', t₁', e2', e1', back⟩ := other_penalties hv hn hf' hf h' h hsame.symm
  rw [e1] at e1'
  cases e1'
  rw [e2] at e2'
  cases e2'
  obtain ⟨hs, t, et, hmin⟩ := ho
  rw [e1] at et
  cases et
  obtain ⟨hs', t, et, hmin'⟩ := ho'
  rw [e2] at et
  cases et
  obtain ⟨ρ, r1, _, r3⟩ := move σ hs
  obtain ⟨ρ', q1, _, q3⟩ := back σ' hs'
  have a := hmin' ρ r1
  have b := hmin ρ' q1
  unfold System.bill at r3 q3
  linarith

theorem bill_raised {d : ℚ} {names : List String} (hd : s.Dearer sys.n d names s') (σ : Assignment) : s'.bill sys σ = s.bill sys σ + d * s.excessHours sys names σ := by
  have key : ∀ {l l' : List BusData}, List.Forall₂ (fun b b' : BusData => b'.label = b.label ∧ (b'.excessPenalty = none ↔ b.excessPenalty = none)) l l' →
      List.Forall₂ (fun b b' : BusData => b.excessPenalty ≠ none → ∀ t < sys.n, b'.penaltyAt t = b.penaltyAt t + if b.label ∈ names then d else 0) l l' →
      (l'.map fun b => b.penaltyCost sys σ).sum = (l.map fun b => b.penaltyCost sys σ).sum + d * (l.map fun b => if b.label ∈ names ∧ b.excessPenalty ≠ none then
        ∑ t ∈ Finset.range sys.n, sys.dt.getD t 0 * (σ (b.label ++ "_" ++ "excess_input") t + σ (b.label ++ "_" ++ "excess_output") t) else 0).sum := by
    intro l l' hl hr
    induction hl with
    | nil => simp
    | @cons b b' l l' hb hl ih =>
      obtain ⟨hr1, hr2⟩ := List.forall₂_cons.1 hr
      simp only [List.map_cons, List.sum_cons, ih hr2, mul_add]
      suffices b'.penaltyCost sys σ = b.penaltyCost sys σ + d * (if b.label ∈ names ∧ b.excessPenalty ≠ none then
          ∑ t ∈ Finset.range sys.n, sys.dt.getD t 0 * (σ (b.label ++ "_" ++ "excess_input") t + σ (b.label ++ "_" ++ "excess_output") t) else 0) by
        rw [this]; ring_nf
      rw [penaltyCost_eq, penaltyCost_eq]
      simp only [hb.1, hb.2]
      by_cases e : b.excessPenalty = none
      · simp [e]
      · simp only [if_neg e]
        by_cases hm : b.label ∈ names
        · rw [if_pos ⟨hm, e⟩, Finset.mul_sum, ← Finset.sum_add_distrib]
          refine Finset.sum_congr rfl fun t ht => ?_
          rw [hr1 e t (Finset.mem_range.1 ht), if_pos hm]
          ring
        · rw [if_neg (fun hh => hm hh.1), mul_zero, add_zero]
          refine Finset.sum_congr rfl fun t ht => ?_
          rw [hr1 e t (Finset.mem_range.1 ht), if_neg hm, add_zero]
  exact key hd.same.buses hd.raised

/-- **C123 (dearer).**  If excess at some buses becomes dearer by the same amount in every step, the cheapest solutions have at most as many flow hours of excess at these buses as
before. -/
theorem C123_dearer (hv : sys.Valid) (hn : sys.n ≠ 0) (hf : s.Fits sys.n) (hf' : s'.Fits sys.n) (h : systemModel sys s = .ok o) (h' : systemModel sys s' = .ok o')
    {d : ℚ} {names : List String} (hd : 0 < d) (hr : s.Dearer sys.n d names s') {σ σ' : Assignment} (ho : o.Optimal σ) (ho' : o'.Optimal σ') :
    s.excessHours sys names σ' ≤ s.excessHours sys names σ := by
  have a := C123 hv hn hf hf' h h' hr.same ho ho'
  have b1 := bill_raised hr σ
  have b2 := bill_raised hr σ'
  unfold System.bill at b1 b2
  rw [b1, b2] at a
  exact le_of_mul_le_mul_left (by linarith) hd

/-- **C123 (settled).**  If a cheapest solution has no excess, higher penalties change neither the least cost nor that this operation is a cheapest one. -/
theorem C123_settled (hv : sys.Valid) (hn : sys.n ≠ 0) (hf : s.Fits sys.n) (hf' : s'.Fits sys.n) (h : systemModel sys s = .ok o) (h' : systemModel sys s' = .ok o')
    (hr : s.NotCheaperExcess sys.n s') {σ : Assignment} (ho : o.Optimal σ) (hx : s.NoExcess sys.n σ) {c : ℚ} (hc : o.Costs σ c) :
    (∃ σ', o'.Optimal σ' ∧ ∀ l, l ∉ o'.coll.tree.labels → σ' l = σ l) ∧ ∀ σ', o'.Optimal σ' → o'.Costs σ' c := by
  obtain ⟨t₁, t₂, e1, e2, move⟩ := other_penalties hv hn hf hf' h h' hr.same
  obtain ⟨t₂', t₁', e2', e1', back⟩ := other_penalties hv hn hf' hf h' h hr.same.symm
  rw [e1] at e1'
  cases e1'
  rw [e2] at e2'
  cases e2'
  obtain ⟨hs, t, et, hmin⟩ := ho
  rw [e1] at et
  cases et
  obtain ⟨t, et, hct⟩ := hc
  rw [e1] at et
  cases et
  obtain ⟨ρ, r1, r2, r3⟩ := move σ hs
  have z1 : s.bill sys σ = 0 := penalty_none hx
  have z2 : s'.bill sys σ = 0 := penalty_none (by
    intro b' hb' t ht
    obtain ⟨b, hb, k1, k2⟩ := forall₂_mem_right hr.same.buses hb'
    obtain ⟨g1, g2⟩ := hx b hb t ht
    rw [(fed_same hr.same.comps _ _ _).1, (fed_same hr.same.comps _ _ _).2, k1]
    exact ⟨g1, fun hp => g2 fun hq => hp (k2.2 hq)⟩)
  have hρ : termsVal ρ t₂ = c := by rw [r3, z1, z2, hct]; ring
  have lower : ∀ τ, o'.solver.Solves τ → c ≤ termsVal τ t₂ := by
    intro τ hτ
    obtain ⟨τ', q1, _, q3⟩ := back τ hτ
    have a := hmin τ' q1
    have hb := (buses_iff hv hf' h' τ).1 ((system_solves h' τ).1 hτ).2.2
    have mono : s.bill sys τ ≤ s'.bill sys τ := by
      have key : ∀ {l l' : List BusData}, (∀ b' ∈ l', s'.BusOk sys τ b') →
          List.Forall₂ (fun b b' : BusData => b'.label = b.label ∧ (b'.excessPenalty = none ↔ b.excessPenalty = none)) l l' →
          List.Forall₂ (fun b b' : BusData => ∀ t < sys.n, b.penaltyAt t ≤ b'.penaltyAt t) l l' →
          (l.map fun b => b.penaltyCost sys τ).sum ≤ (l'.map fun b => b.penaltyCost sys τ).sum := by
        intro l l' hbs hl hrr
        induction hl with
        | nil => exact le_rfl
        | @cons b b' l l' hbb hl ih =>
          obtain ⟨hr1, hr2⟩ := List.forall₂_cons.1 hrr
          simp only [List.map_cons, List.sum_cons]
          refine add_le_add ?_ (ih (fun x hx => hbs x (List.mem_cons_of_mem _ hx)) hr2)
          rw [penaltyCost_eq, penaltyCost_eq]
          simp only [hbb.1, hbb.2]
          refine Finset.sum_le_sum fun t ht => ?_
          by_cases e : b.excessPenalty = none
          · simp [e]
          · simp only [if_neg e]
            obtain ⟨k1, k2, _⟩ := (hbs b' List.mem_cons_self).2 (fun hq => e (hbb.2.1 hq)) t (Finset.mem_range.1 ht)
            rw [hbb.1] at k1 k2
            exact mul_le_mul_of_nonneg_right (hr1 t (Finset.mem_range.1 ht)) (mul_nonneg (hv.width_pos (Finset.mem_range.1 ht)).le (add_nonneg k1 k2))
      exact key hb hr.same.buses hr.raised
    linarith
  refine ⟨⟨ρ, ⟨r1, t₂, e2, fun τ hτ => hρ ▸ lower τ hτ⟩, r2⟩, fun σ' ho' => ?_⟩
  obtain ⟨hs', t, et, hmin'⟩ := ho'
  rw [e2] at et
  cases et
  exact ⟨t₂, e2, le_antisymm (hρ ▸ hmin' ρ r1) (lower σ' hs')⟩

/-- **C123 (concave).**  The least cost is a concave function of the penalties: between two sets of penalties it is at least what is between the two least costs. -/
theorem C123_concave {s₀ s₁ : System} {o₀ o₁ : SysOut} (hv : sys.Valid) (hn : sys.n ≠ 0) (hf : s.Fits sys.n) (hf₀ : s₀.Fits sys.n) (hf₁ : s₁.Fits sys.n)
    (h : systemModel sys s = .ok o) (h₀ : systemModel sys s₀ = .ok o₀) (h₁ : systemModel sys s₁ = .ok o₁) {w : ℚ} (hw : 0 ≤ w) (hw' : w ≤ 1)
    (hm : s.BetweenPenalties sys.n w s₀ s₁) {σ σ₀ σ₁ : Assignment} (ho : o.Optimal σ) (ho₀ : o₀.Optimal σ₀) (ho₁ : o₁.Optimal σ₁) {c c₀ c₁ : ℚ}
    (hc : o.Costs σ c) (hc₀ : o₀.Costs σ₀ c₀) (hc₁ : o₁.Costs σ₁ c₁) : (1 - w) * c₀ + w * c₁ ≤ c := by
  obtain ⟨t, t₀, e, e₀, m₀⟩ := other_penalties hv hn hf hf₀ h h₀ hm.first
  obtain ⟨t', t₁, e', e₁, m₁⟩ := other_penalties hv hn hf hf₁ h h₁ hm.second
  rw [e] at e'
  cases e'
  obtain ⟨hs, _⟩ := ho
  obtain ⟨_, x, ex, min₀⟩ := ho₀
  rw [e₀] at ex
  cases ex
  obtain ⟨_, x, ex, min₁⟩ := ho₁
  rw [e₁] at ex
  cases ex
  obtain ⟨x, ex, rfl⟩ := hc
  rw [e] at ex
  cases ex
  obtain ⟨x, ex, rfl⟩ := hc₀
  rw [e₀] at ex
  cases ex
  obtain ⟨x, ex, rfl⟩ := hc₁
  rw [e₁] at ex
  cases ex
  obtain ⟨ρ₀, p₀, _, q₀⟩ := m₀ σ hs
  obtain ⟨ρ₁, p₁, _, q₁⟩ := m₁ σ hs
  have a₀ := min₀ ρ₀ p₀
  have a₁ := min₁ ρ₁ p₁
  have hb : s.bill sys σ = (1 - w) * s₀.bill sys σ + w * s₁.bill sys σ := by
    have key : ∀ {l l₀ l₁ : List BusData}, List.Forall₂ (fun b b' : BusData => b'.label = b.label ∧ (b'.excessPenalty = none ↔ b.excessPenalty = none)) l l₀ →
        List.Forall₂ (fun b b' : BusData => b'.label = b.label ∧ (b'.excessPenalty = none ↔ b.excessPenalty = none)) l l₁ →
        List.Forall₂ (fun (b : BusData) (q : BusData × BusData) => ∀ t < sys.n, b.penaltyAt t = (1 - w) * q.1.penaltyAt t + w * q.2.penaltyAt t) l (l₀.zip l₁) →
        (l.map fun b => b.penaltyCost sys σ).sum = (1 - w) * (l₀.map fun b => b.penaltyCost sys σ).sum + w * (l₁.map fun b => b.penaltyCost sys σ).sum := by
      intro l l₀ l₁ k₀ k₁ k
      induction k₀ generalizing l₁ with
      | nil => cases k₁; simp
      | @cons b b₀ l l₀ x₀ k₀ ih =>
        cases k₁ with
        | @cons _ b₁ _ l₁ x₁ k₁ =>
          rw [List.zip_cons_cons] at k
          obtain ⟨y, k⟩ := List.forall₂_cons.1 k
          simp only [List.map_cons, List.sum_cons, ih k₁ k]
          suffices b.penaltyCost sys σ = (1 - w) * b₀.penaltyCost sys σ + w * b₁.penaltyCost sys σ by rw [this]; ring
          rw [penaltyCost_eq, penaltyCost_eq, penaltyCost_eq, Finset.mul_sum, Finset.mul_sum, ← Finset.sum_add_distrib]
          refine Finset.sum_congr rfl fun t ht => ?_
          simp only [x₀.1, x₀.2, x₁.1, x₁.2, y t (Finset.mem_range.1 ht)]
          ring
    exact key hm.first.buses hm.second.buses hm.mixed
  have g₀ := mul_le_mul_of_nonneg_left a₀ (by linarith : 0 ≤ 1 - w)
  have g₁ := mul_le_mul_of_nonneg_left a₁ hw
  rw [q₀] at g₀
  rw [q₁] at g₁
  rw [show termsVal σ t = (1 - w) * (termsVal σ t - s.bill sys σ + s₀.bill sys σ) + w * (termsVal σ t - s.bill sys σ + s₁.bill sys σ) by rw [hb]; ring]
  linarith

/-! ### Example: a load that a generator could supply, at different penalties -/

/-- The system of `exDear` with another penalty. -/
def exPen (p : ℚ) : System := { exDear with buses := [{ label := "heat", excessPenalty := some (.s p) }] }

theorem exPen_fits (p : ℚ) : (exPen p).Fits exSys.n := by
  obtain ⟨h1, h2, _⟩ := exDear_fits
  refine ⟨h1, h2, ?_⟩
  simp only [exPen, List.forall_mem_cons, List.not_mem_nil, false_imp_iff, implies_true, and_true]
  intro pen hp
  cases hp
  exact Or.inl rfl

theorem exPen_only (p q : ℚ) : (exPen p).OnlyPenalties (exPen q) := ⟨rfl, rfl, by simp [exPen]⟩

theorem exPen_optimum {p : ℚ} (hp : 0 ≤ p) {o : SysOut} (h : systemModel exSys (exPen p) = .ok o) (hs : ∃ σ, o.solver.Solves σ) : ∃ σ, o.Optimal σ :=
  C95 exSys_valid (by decide) (exPen_fits p) exDear_flows h (rank := fun _ => 0) (by simp [Ranked, exPen, exDear]) (by simp [Ranked, exPen, exDear]) (by
      simp only [exPen, List.forall_mem_cons, List.not_mem_nil, false_imp_iff, implies_true, and_true]
      intro pen hpen t _
      cases hpen
      exact hp) hs

theorem exPen_ok : (∃ o, systemModel exSys (exPen 100000) = .ok o ∧ o.solver.Solves exDearSupplied) ∧ (∃ o, systemModel exSys (exPen 200000) = .ok o ∧ o.solver.Solves exDearSupplied) ∧
    ∃ o, systemModel exSys (exPen 300000) = .ok o ∧ o.solver.Solves exDearSupplied := by
  obtain ⟨o, h, hs⟩ := builds_and_solves (σ := exDearSupplied) (r := systemModel exSys (exPen 100000))
    (f := fun o : SysOut => MTree.node o.solver.vars o.solver.cons []) (by decide +kernel)
  obtain ⟨o', h', hs'⟩ := builds_and_solves (σ := exDearSupplied) (r := systemModel exSys (exPen 200000))
    (f := fun o : SysOut => MTree.node o.solver.vars o.solver.cons []) (by decide +kernel)
  obtain ⟨o'', h'', hs''⟩ := builds_and_solves (σ := exDearSupplied) (r := systemModel exSys (exPen 300000))
    (f := fun o : SysOut => MTree.node o.solver.vars o.solver.cons []) (by decide +kernel)
  exact ⟨⟨o, h, hs.1, hs.2.1⟩, ⟨o', h', hs'.1, hs'.2.1⟩, ⟨o'', h'', hs''.1, hs''.2.1⟩⟩

/-- The hypotheses of `C123`, `C123_dearer` and `C123_concave` are met: penalties of 100000, 200000 and 300000. -/
example : ∃ o₀ o o₁ σ₀ σ σ₁, systemModel exSys (exPen 100000) = .ok o₀ ∧ systemModel exSys (exPen 200000) = .ok o ∧ systemModel exSys (exPen 300000) = .ok o₁ ∧
    o₀.Optimal σ₀ ∧ o.Optimal σ ∧ o₁.Optimal σ₁ ∧ (exPen 100000).Dearer exSys.n 100000 ["heat"] (exPen 200000) ∧
    (exPen 200000).BetweenPenalties exSys.n (1 / 2) (exPen 100000) (exPen 300000) ∧
    (exPen 100000).excessHours exSys ["heat"] σ ≤ (exPen 100000).excessHours exSys ["heat"] σ₀ := by
  obtain ⟨⟨o₀, h₀, s₀⟩, ⟨o, h, s⟩, ⟨o₁, h₁, s₁⟩⟩ := exPen_ok
  obtain ⟨σ₀, q₀⟩ := exPen_optimum (by norm_num) h₀ ⟨_, s₀⟩
  obtain ⟨σ, q⟩ := exPen_optimum (by norm_num) h ⟨_, s⟩
  obtain ⟨σ₁, q₁⟩ := exPen_optimum (by norm_num) h₁ ⟨_, s₁⟩
  have hd : (exPen 100000).Dearer exSys.n 100000 ["heat"] (exPen 200000) := ⟨exPen_only _ _, by simp [exPen, BusData.penaltyAt, Num.at]; norm_num⟩
  refine ⟨o₀, o, o₁, σ₀, σ, σ₁, h₀, h, h₁, q₀, q, q₁, hd, ⟨exPen_only _ _, exPen_only _ _, by simp [exPen, BusData.penaltyAt, Num.at]; norm_num⟩, ?_⟩
  exact C123_dearer exSys_valid (by decide) (exPen_fits _) (exPen_fits _) h₀ h (by norm_num) hd q₀ q

/-- With a penalty above the price of the generator it is cheapest to supply the load. -/
theorem exPen_settled {o : SysOut} (h : systemModel exSys (exPen 300000) = .ok o) (hs : o.solver.Solves exDearSupplied) :
    o.Optimal exDearSupplied ∧ o.Costs exDearSupplied 1600000 := by
  obtain ⟨terms, e, ht, he, hcost⟩ := solution_cost exSys_valid (by decide) (exPen_fits _) h
  have he' : e = { label := "costs", isStandard := true, isObjective := true } := by
    simp only [exPen, exDear, List.find?_cons, Option.some.injEq] at he
    exact he.symm
  subst he'
  have hval : (exPen 300000).cost exSys { label := "costs", isStandard := true, isObjective := true } exDearSupplied = 1600000 := by decide +kernel
  refine ⟨⟨hs, terms, ht, fun σ hσ => ?_⟩, terms, ht, by rw [hcost _ hs, hval]⟩
  rw [hcost _ hs, hcost _ hσ, hval]
  obtain ⟨o', h', hl⟩ := of_okB (p := fun o : SysOut => decide (exDearLoad ∈ o.solver.vars)) (r := systemModel exSys (exPen 300000)) (by decide +kernel)
  rw [h] at h'
  cases h'
  have hr : ∀ t < 3, σ "Load__Q_flow_rate" t = 2 := by
    intro t ht
    have := C04_bounds (x := exDearLoad) (by decide +kernel) (hσ.1 exDearLoad (by simpa using hl)) t ht
    exact le_antisymm (this.2.1 _ rfl) (this.1 _ rfl)
  have hb := (buses_iff exSys_valid (exPen_fits _) h σ).1 ((system_solves h σ).1 hσ).2.2
  have hg : ∀ t < 3, 0 ≤ σ ("heat" ++ "_" ++ "excess_input") t ∧ 0 ≤ σ ("heat" ++ "_" ++ "excess_output") t ∧ 2 ≤ σ "Gen__Q_flow_rate" t + σ ("heat" ++ "_" ++ "excess_input") t := by
    intro t ht
    have := (hb { label := "heat", excessPenalty := some (.s 300000) } (by simp [exPen])).2 (by simp) t ht
    have f1 : fedInto σ (exPen 300000) "heat" t = σ "Gen__Q_flow_rate" t := by simp [fedInto, exPen, exDear, Comp.outputs, Comp.label]
    have f2 : takenFrom σ (exPen 300000) "heat" t = σ "Load__Q_flow_rate" t := by simp [takenFrom, exPen, exDear, Comp.inputs, Comp.label]
    rw [f1, f2, hr t ht] at this
    exact ⟨this.1, this.2.1, by linarith [this.2.1, this.2.2]⟩
  have o1 := (C21_system_operation exSys_valid (by decide) (exPen_fits _) h hσ (List.mem_of_find?_eq_some he)).1
  have o2 := (C21_system_invest exSys_valid (by decide) (exPen_fits _) h hσ (List.mem_of_find?_eq_some he)).1
  have z1 : ∀ t < exSys.n, σ ("costs" ++ "__operation_operation_sum_TS") t = σ "Gen__Q_flow_rate" t * exSys.width t * 200000 := by
    intro t ht
    rw [o1 t ht]
    have hl : rateL "Gen" "Q" = "Gen__Q_flow_rate" := by decide +kernel
    simp [exPen, exDear, Comp.operation, Comp.flows, Comp.inputs, Comp.outputs, Comp.label, flowOperation, onOffOperation, effVal, Comp.onOff, fromOthersOp, names, List.filter, Num.at, hl]
    ring
  have z2 : σ ("costs" ++ "__invest_invest_sum") 0 = 0 := by
    rw [o2]
    simp [exPen, exDear, Comp.investment, Comp.flows, Comp.inputs, Comp.outputs, flowInvestment, fromOthersInv]
  unfold System.cost
  rw [z2, Finset.sum_congr rfl fun t ht => z1 t (Finset.mem_range.1 ht)]
  obtain ⟨a0, b0, c0⟩ := hg 0 (by decide)
  obtain ⟨a1, b1, c1⟩ := hg 1 (by decide)
  obtain ⟨a2, b2, c2⟩ := hg 2 (by decide)
  simp only [exPen, List.map_cons, List.map_nil, List.sum_cons, List.sum_nil, BusData.penaltyCost, exSys, Finset.sum_range_succ, Finset.sum_range_zero, Sys.width, Num.at]
  norm_num
  linarith

/-- The hypotheses of `C123_settled` are met: with any higher penalty at the same bus the costs stay the same. -/
example : ∃ o, systemModel exSys (exPen 300000) = .ok o ∧ ∀ q : ℚ, 300000 ≤ q → ∀ o', systemModel exSys (exPen q) = .ok o' → ∀ σ', o'.Optimal σ' → o'.Costs σ' 1600000 := by
  obtain ⟨_, _, ⟨o, h, hs⟩⟩ := exPen_ok
  obtain ⟨k1, k2⟩ := exPen_settled h hs
  refine ⟨o, h, fun q hq o' h' => (C123_settled exSys_valid (by decide) (exPen_fits _) (exPen_fits _) h h' ⟨exPen_only _ _, ?_⟩ k1 ?_ k2).2⟩
  · simpa [exPen, BusData.penaltyAt, Num.at] using fun _ _ => hq
  · unfold System.NoExcess
    decide +kernel

end Flix
