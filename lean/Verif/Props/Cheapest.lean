import Verif.Lemmas.MILP
import Verif.Lemmas.Bounded
import Verif.Lemmas.Whole
import Verif.Props.Optimum

/-!
# Mixed solutions and cheapest solutions

C93: what the code builds is a linear model apart from the binary variables, so solutions with the same binary decisions can be
mixed.  C94: a model whose cost is bounded below has a cheapest solution.  C95: the cost of a flow system is bounded below, so every
solvable flow system has a cheapest solution.
-/

namespace Flix

/-! ## C93 -/

/-- **C93 (any model).**  If two solutions agree in all binary variables, every weighted mean of the two is a solution. -/
theorem C93 {m : SolverModel} {σ τ : Assignment} (hs : m.Solves σ) (ht : m.Solves τ)
    (hb : ∀ x ∈ m.vars, x.isBinary = true → ∀ i, σ x.label i = τ x.label i) {w : ℚ} (h0 : 0 ≤ w) (h1 : w ≤ 1) :
    m.Solves (fun l i => w * σ l i + (1 - w) * τ l i) := by
  obtain ⟨R, B, hB, hiff⟩ := model_linear hs
  obtain ⟨s1, s2⟩ := (hiff σ).1 hs
  obtain ⟨t1, t2⟩ := (hiff τ).1 ht
  refine (hiff _).2 ⟨fun r hr => row_mix h0 h1 (s1 r hr) (t1 r hr), fun k hk => ?_⟩
  obtain ⟨x, hx, hxb, e⟩ := hB k hk
  have e' : σ k.1 k.2 = τ k.1 k.2 := by rw [e]; exact hb x hx hxb k.2
  have : w * σ k.1 k.2 + (1 - w) * τ k.1 k.2 = σ k.1 k.2 := by rw [← e']; ring
  rw [this]
  exact s2 k hk

variable {sys : Sys} {s : System} {o : SysOut}

/-- **C93 (flow systems).**  Mixing two solutions of a flow system with the same binary decisions gives a solution, and its cost is
the weighted mean of the two costs. -/
theorem C93_system (hv : sys.Valid) (hn : sys.n ≠ 0) (hf : s.Fits sys.n) (h : systemModel sys s = .ok o) {σ τ : Assignment} (hs : o.solver.Solves σ)
    (ht : o.solver.Solves τ) (hb : ∀ x ∈ o.solver.vars, x.isBinary = true → ∀ i, σ x.label i = τ x.label i) {w : ℚ} (h0 : 0 ≤ w) (h1 : w ≤ 1) :
    o.solver.Solves (fun l i => w * σ l i + (1 - w) * τ l i) ∧
      ∀ e, s.effects.find? (·.isObjective) = some e →
        s.cost sys e (fun l i => w * σ l i + (1 - w) * τ l i) = w * s.cost sys e σ + (1 - w) * s.cost sys e τ := by
  have hm := C93 hs ht hb h0 h1
  refine ⟨hm, fun e he => ?_⟩
  obtain ⟨terms, e', _, he', hc⟩ := solution_cost hv hn hf h
  rw [he] at he'
  cases he'
  rw [← hc _ hm, ← hc _ hs, ← hc _ ht]
  exact termsVal_mix w σ τ terms

/-! ## C94 -/

/-- **C94.**  A model that has a solution and whose objective does not go below some number on its solutions has a cheapest
solution. -/
theorem C94 {m : SolverModel} {terms : List (ℚ × String × Nat)} {b : ℚ} (hs : ∃ σ, m.Solves σ) (hb : ∀ σ, m.Solves σ → b ≤ termsVal σ terms) :
    ∃ σ, m.Solves σ ∧ ∀ τ, m.Solves τ → termsVal σ terms ≤ termsVal τ terms := by
  obtain ⟨σ₀, h₀⟩ := hs
  obtain ⟨R, B, _, hiff⟩ := model_linear h₀
  obtain ⟨a1, a2⟩ := (hiff σ₀).1 h₀
  obtain ⟨σ, hσ, hmin⟩ := milp_attained terms B R a1 a2 (b := b) fun τ t1 t2 => hb τ ((hiff τ).2 ⟨t1, t2⟩)
  exact ⟨σ, (hiff σ).2 hσ, fun τ ht => hmin τ ((hiff τ).1 ht).1 ((hiff τ).1 ht).2⟩

/-! ## C95 -/

/-- Bounded on a set of assignments. -/
def BddOn (S : Assignment → Prop) (f : Assignment → ℚ) : Prop := ∃ B : ℚ, ∀ σ, S σ → |f σ| ≤ B

theorem bddOn_const (S : Assignment → Prop) (k : ℚ) : BddOn S fun _ => k := ⟨|k|, fun _ _ => le_rfl⟩

theorem BddOn.add {S : Assignment → Prop} {f g : Assignment → ℚ} (hf : BddOn S f) (hg : BddOn S g) : BddOn S fun σ => f σ + g σ := by
  obtain ⟨A, hA⟩ := hf
  obtain ⟨B, hB⟩ := hg
  exact ⟨A + B, fun σ hs => (abs_add_le _ _).trans (add_le_add (hA σ hs) (hB σ hs))⟩

theorem BddOn.smul {S : Assignment → Prop} {f : Assignment → ℚ} (hf : BddOn S f) (k : ℚ) : BddOn S fun σ => k * f σ := by
  obtain ⟨A, hA⟩ := hf
  refine ⟨|k| * A, fun σ hs => ?_⟩
  rw [abs_mul]
  exact mul_le_mul_of_nonneg_left (hA σ hs) (abs_nonneg _)

theorem bddOn_list {S : Assignment → Prop} {α} {f : α → Assignment → ℚ} : ∀ (l : List α), (∀ a ∈ l, BddOn S (f a)) → BddOn S fun σ => (l.map fun a => f a σ).sum
  | [], _ => by simpa using bddOn_const S 0
  | a :: l, h => by
    simp only [List.map_cons, List.sum_cons]
    exact (h a List.mem_cons_self).add (bddOn_list l fun b hb => h b (List.mem_cons_of_mem _ hb))

theorem bddOn_sum {S : Assignment → Prop} {f : Nat → Assignment → ℚ} (n : Nat) (h : ∀ t < n, BddOn S (f t)) : BddOn S fun σ => ∑ t ∈ Finset.range n, f t σ := by
  induction n with
  | zero => simpa using bddOn_const S 0
  | succ n ih =>
    simp only [Finset.sum_range_succ]
    exact (ih fun t ht => h t (by omega)).add (h n (by omega))

/-- In a ranked collection bounded direct contributions give bounded effects. -/
theorem ranked_bdd {es : List EffectData} {shares : EffectData → List (String × Num)} {rank : String → Nat} (hr : Ranked es shares rank)
    (f : Num → ℚ) {S : Assignment → Prop} {d x : Assignment → String → ℚ} (hd : ∀ l, BddOn S fun σ => d σ l)
    (hx : ∀ σ, S σ → ∀ e ∈ es, x σ e.label = d σ e.label + (es.map fun o => (((shares o).filter fun q => q.1 = e.label).map fun q => f q.2 * x σ o.label).sum).sum) :
    ∀ e ∈ es, BddOn S fun σ => x σ e.label := by
  obtain ⟨N, hN⟩ : ∃ N, ∀ e ∈ es, rank e.label ≤ N := by
    clear hr hx
    induction es with
    | nil => exact ⟨0, by simp⟩
    | cons e es ih =>
      obtain ⟨N, hN⟩ := ih
      refine ⟨max N (rank e.label), ?_⟩
      intro e' he'
      rcases List.mem_cons.1 he' with rfl | he'
      · exact le_max_right _ _
      · exact le_trans (hN e' he') (le_max_left _ _)
  have key : ∀ k, ∀ e ∈ es, N - rank e.label < k → BddOn S fun σ => x σ e.label := by
    intro k
    induction k with
    | zero => intro e _ h; omega
    | succ k ih =>
      intro e he hk
      obtain ⟨B, hB⟩ : BddOn S fun σ => d σ e.label + (es.map fun o => (((shares o).filter fun q => q.1 = e.label).map fun q => f q.2 * x σ o.label).sum).sum := by
        refine (hd e.label).add (bddOn_list es fun o ho => bddOn_list _ fun q hq => ?_)
        obtain ⟨hq, hl⟩ := List.mem_filter.1 hq
        have hl : q.1 = e.label := of_decide_eq_true hl
        have := hr o ho q hq
        rw [hl] at this
        have := hN o ho
        exact (ih o ho (by omega)).smul _
      exact ⟨B, fun σ hs => by simp only [hx σ hs e he]; exact hB σ hs⟩
  exact fun e he => key _ e he (Nat.lt_succ_self _)

/-- A call with a bounded variable has a bounded value. -/
theorem value_bdd {n : Nat} {c : ShareCall} (hw : c.WellFormed n) (hp : c.target ≠ .penalty) {S : Assignment → Prop}
    (hr : ∀ x, c.var = some x → ∃ B : ℚ, ∀ σ, S σ → ∀ i < x.length, |σ x.label i| ≤ B) {t : Nat} (ht : t < n) : BddOn S fun σ => c.share.value σ t := by
  have hsum : c.asSum = false := by
    unfold ShareCall.WellFormed at hw
    cases htg : c.target <;> rw [htg] at hw
    · exact hw.1
    · exact hw.1
    · exact absurd htg hp
  have hshape : ∀ x, c.var = some x → x.length = 1 ∨ x.length = n := by
    intro x hx
    have : ∃ b, c.share.WellFormed b n := by
      unfold ShareCall.WellFormed at hw
      cases htg : c.target <;> rw [htg] at hw <;> exact ⟨_, hw.2⟩
    obtain ⟨b, hb⟩ := this
    simp only [Share.WellFormed, ShareCall.share, hx, hsum] at hb
    rcases hb with hb | hb | hb
    · exact absurd hb.1 (by simp)
    · exact .inl hb.2.1
    · exact .inr hb.2.2.1
  cases hx : c.var with
  | none =>
    simp only [Share.value, ShareCall.share, hx, hsum]
    exact bddOn_const S _
  | some x =>
    simp only [Share.value, ShareCall.share, hx, hsum]
    obtain ⟨B, hB⟩ := hr x hx
    refine BddOn.smul ⟨B, fun σ hs => hB σ hs _ ?_⟩ _
    split
    · omega
    · rcases hshape x hx with e | e <;> omega

/-- The effects of a solution are bounded. -/
theorem effects_bdd (hv : sys.Valid) (hn : sys.n ≠ 0) (hf : s.Fits sys.n) (hff : ∀ c ∈ s.comps, ∀ f ∈ c.flows, f.Fits sys.n)
    (h : systemModel sys s = .ok o) {rank : String → Nat} (hr1 : Ranked s.effects (·.shareOperation) rank) (hr2 : Ranked s.effects (·.shareInvest) rank) :
    ∀ e ∈ s.effects, (∀ t < sys.n, BddOn o.solver.Solves fun σ => σ (opTSL e.label) t) ∧ BddOn o.solver.Solves fun σ => σ (invSumL e.label) 0 := by
  obtain ⟨h1, h2, h3, _⟩ := system_inv h
  obtain ⟨hw, _, _, _⟩ := system_calls hv hf h
  have rows := fun σ (hs : o.solver.Solves σ) => ((collection_iff hv hn h3 hf.effects hw).2.2.2.2 σ).1 ((system_solves h σ).1 hs).1
  have hd : ∀ (tg : Target) (t : Nat), tg ≠ .penalty → t < sys.n → ∀ l, BddOn o.solver.Solves fun σ => direct σ s.effects o.calls tg l t := by
    intro tg t htg ht l
    refine bddOn_list _ fun c hc => ?_
    obtain ⟨hc, hg⟩ := List.mem_filter.1 hc
    have htgt : c.target = tg := goesTo_target hg
    refine value_bdd (hw c hc) (by rw [htgt]; exact htg) (fun x hx => ?_) ht
    unfold SysOut.calls at hc
    rcases List.mem_append.1 hc with hc | hc
    · obtain ⟨l, hl, hc⟩ := List.mem_flatten.1 hc
      obtain ⟨oc, hoc, rfl⟩ := List.mem_map.1 hl
      obtain ⟨c', hc', hm⟩ := forall₂_mem_right h1 hoc
      obtain ⟨B, hB⟩ := model_bdd hv (hff c' hc') hm c hc x hx
      exact ⟨B, fun σ hs => hB σ (((system_solves h σ).1 hs).2.1 oc hoc)⟩
    · obtain ⟨l, hl, hc⟩ := List.mem_flatten.1 hc
      obtain ⟨ob, hob, rfl⟩ := List.mem_map.1 hl
      exfalso
      obtain ⟨b, hb, hm⟩ := forall₂_mem_right h2 hob
      have := (bus_calls hv (hf.buses b hb)
        (busFlows_all (σ := fun _ _ => 0) (n := sys.n) (t := 0) Comp.outputs (·.outputs) (forall₂_imp' h1 fun c _ oc h => (model_flowOf h).2) (bus := b.label)).2
        (busFlows_all (σ := fun _ _ => 0) (n := sys.n) (t := 0) Comp.inputs (·.inputs) (forall₂_imp' h1 fun c _ oc h => (model_flowOf h).1) (bus := b.label)).2 hm).1 c hc
      exact htg (htgt ▸ this.2)
  intro e he
  constructor
  · intro t ht
    exact ranked_bdd hr1 (fun f => f.at t) (d := fun σ l => direct σ s.effects o.calls .operation l t) (x := fun σ l => σ (opTSL l) t)
      (hd .operation t (by simp) ht) (fun σ hs e he => ((rows σ hs).effect e he).opStep t ht) e he
  · exact ranked_bdd hr2 (fun f => f.at 0) (d := fun σ l => direct σ s.effects o.calls .invest l 0) (x := fun σ l => σ (invSumL l) 0)
      (hd .invest 0 (by simp) (by omega)) (fun σ hs e he => ((rows σ hs).effect e he).inv) e he

/-- **C95 (bound).**  If the shares between effects have no cycle and penalties are not negative, the cost of all solutions of a
flow system stays above some number. -/
theorem C95_bounded (hv : sys.Valid) (hn : sys.n ≠ 0) (hf : s.Fits sys.n) (hff : ∀ c ∈ s.comps, ∀ f ∈ c.flows, f.Fits sys.n)
    (h : systemModel sys s = .ok o) {rank : String → Nat} (hr1 : Ranked s.effects (·.shareOperation) rank) (hr2 : Ranked s.effects (·.shareInvest) rank)
    (hp : ∀ b ∈ s.buses, ∀ pen, b.excessPenalty = some pen → ∀ t < sys.n, 0 ≤ pen.at t) {e : EffectData} (he : e ∈ s.effects) :
    ∃ b, ∀ σ, o.solver.Solves σ → b ≤ s.cost sys e σ := by
  obtain ⟨k1, k2⟩ := effects_bdd hv hn hf hff h hr1 hr2 e he
  obtain ⟨B, hB⟩ := (bddOn_sum (f := fun t σ => σ (opTSL e.label) t) sys.n k1).add k2
  refine ⟨-B, fun σ hs => ?_⟩
  have hbus := (buses_iff hv hf h σ).1 ((system_solves h σ).1 hs).2.2
  have hpen : 0 ≤ (s.buses.map fun b => b.penaltyCost sys σ).sum := by
    refine List.sum_nonneg fun x hx => ?_
    obtain ⟨b, hb, rfl⟩ := List.mem_map.1 hx
    unfold BusData.penaltyCost
    cases hpb : b.excessPenalty with
    | none => exact le_rfl
    | some pen =>
      refine Finset.sum_nonneg fun t ht => ?_
      have ht := Finset.mem_range.1 ht
      obtain ⟨e1, e2, _⟩ := (hbus b hb).2 (by rw [hpb]; simp) t ht
      exact mul_nonneg (mul_nonneg (hp b hb pen hpb t ht) (hv.width_pos ht).le) (add_nonneg e1 e2)
  have := (abs_le.1 (hB σ hs)).1
  unfold System.cost
  simp only [opTSL, invSumL] at this
  linarith

/-- **C95.**  Every flow system that has a solution has a cheapest one. -/
theorem C95 (hv : sys.Valid) (hn : sys.n ≠ 0) (hf : s.Fits sys.n) (hff : ∀ c ∈ s.comps, ∀ f ∈ c.flows, f.Fits sys.n)
    (h : systemModel sys s = .ok o) {rank : String → Nat} (hr1 : Ranked s.effects (·.shareOperation) rank) (hr2 : Ranked s.effects (·.shareInvest) rank)
    (hp : ∀ b ∈ s.buses, ∀ pen, b.excessPenalty = some pen → ∀ t < sys.n, 0 ≤ pen.at t) (hs : ∃ σ, o.solver.Solves σ) :
    ∃ σ, o.Optimal σ := by
  obtain ⟨terms, e, ht, he, hc⟩ := solution_cost hv hn hf h
  obtain ⟨b, hb⟩ := C95_bounded hv hn hf hff h hr1 hr2 hp (List.mem_of_find?_eq_some he)
  obtain ⟨σ, h1, h2⟩ := C94 (terms := terms) hs (b := b) fun τ hτ => by rw [hc τ hτ]; exact hb τ hτ
  exact ⟨σ, h1, terms, ht, h2⟩

/-- The example system has a cheapest solution. -/
example : ∃ o σ, systemModel exSys exSystem = .ok o ∧ o.Optimal σ := by
  obtain ⟨o, h, hs⟩ := exSystem_ok
  obtain ⟨σ, hσ⟩ := C95 exSys_valid (by decide) exSystem_fits (by
    simp only [exSystem, List.forall_mem_cons, List.not_mem_nil, false_imp_iff, implies_true, and_true, Comp.flows, Comp.inputs, Comp.outputs, List.nil_append,
      List.append_nil, List.cons_append]
    refine ⟨?_, ⟨?_, ?_⟩, ?_⟩ <;> constructor <;> simp [exGasOut, exBoilerIn, exBoilerOut, exLoadIn, Num.Fits, Num.isScalar, exSys]) h
    (rank := fun l => if l = "co2" then 1 else 0) (by
      intro e he q hq
      simp only [exSystem, exEffects, List.mem_cons, List.not_mem_nil, or_false] at he
      rcases he with rfl | rfl
      · simp at hq
      · simp only [List.mem_cons, List.not_mem_nil, or_false] at hq
        subst hq
        simp) (by
      intro e he q hq
      simp only [exSystem, exEffects, List.mem_cons, List.not_mem_nil, or_false] at he
      rcases he with rfl | rfl <;> simp at hq) (by
      simp only [exSystem, List.forall_mem_cons, List.not_mem_nil, false_imp_iff, implies_true, and_true]
      refine ⟨by simp, fun pen hp t _ => ?_⟩
      cases hp
      norm_num) ⟨_, hs⟩
  exact ⟨o, σ, h, hσ⟩

/-- A source with an on/off decision at a bus that takes excess. -/
def exMix : System :=
  { effects := [{ label := "costs", isStandard := true, isObjective := true }]
    comps := [.plain { label := "Src", inputs := [], outputs := [{ label := "Q", bus := "heat", size := .num 2, relMin := .s (1 / 4), onOff := some {} }] }]
    buses := [{ label := "heat", excessPenalty := some (.s 100) }] }

/-- The source runs all the time with the rate `x`; the penalty is `p`, the energy `e`. -/
def exMixSol (x p e : ℚ) : Assignment := tableSol
  [("heat_excess_output", [x, x, x]), ("Effects__penalty_penalty_sum", [p]), ("Effects__heat__excess_output", [p]),
   ("Src__Q_flow_rate", [x, x, x]), ("Src__Q_sumFlowHours", [e]), ("Src__Q__OnOff_on", [1, 1, 1]), ("Src__Q__OnOff_totalOnHours", [4]),
   ("Src__Q__OnOff_switchOn", [1, 0, 0]), ("Src__Q__OnOff_nrSwitchOn", [1])]

/-- The hypotheses of `C93` are met by two different solutions with the same binary decisions. -/
example : ∃ o, systemModel exSys exMix = .ok o ∧ o.solver.Solves (exMixSol 2 800 8) ∧ o.solver.Solves (exMixSol 1 400 4) ∧
    (∃ x ∈ o.solver.vars, x.isBinary = true) ∧ ∀ x ∈ o.solver.vars, x.isBinary = true → ∀ i, exMixSol 2 800 8 x.label i = exMixSol 1 400 4 x.label i := by
  obtain ⟨o, h, hs⟩ := builds_and_solves (σ := exMixSol 2 800 8) (r := systemModel exSys exMix)
    (f := fun o : SysOut => MTree.node o.solver.vars o.solver.cons []) (by decide +kernel)
  obtain ⟨o', h', ht⟩ := builds_and_solves (σ := exMixSol 1 400 4) (r := systemModel exSys exMix)
    (f := fun o : SysOut => MTree.node o.solver.vars o.solver.cons []) (by decide +kernel)
  rw [h] at h'
  cases h'
  obtain ⟨o', h', hb⟩ := of_okB (p := fun o : SysOut => o.solver.vars.any (·.isBinary) && o.solver.vars.all fun x => !x.isBinary || decide (x.label ∈
    ["Src__Q__OnOff_on", "Src__Q__OnOff_switchOn", "Src__Q__OnOff_switchOff"])) (r := systemModel exSys exMix) (by decide +kernel)
  rw [h] at h'
  cases h'
  simp only [Bool.and_eq_true, List.any_eq_true, List.all_eq_true, Bool.or_eq_true, Bool.not_eq_true', decide_eq_true_eq] at hb
  refine ⟨o, h, ⟨hs.1, hs.2.1⟩, ⟨ht.1, ht.2.1⟩, hb.1, fun x hx hbin i => ?_⟩
  rcases hb.2 x hx with e | e
  · rw [e] at hbin; cases hbin
  · simp only [List.mem_cons, List.not_mem_nil, or_false] at e
    rcases e with e | e | e <;> rw [e] <;> simp [exMixSol, tableSol, List.lookup]

/-! ### The hypothesis on penalties is needed -/

/-- A bus whose excess is rewarded. -/
def exReward : System :=
  { effects := [{ label := "costs", isStandard := true, isObjective := true }]
    comps := []
    buses := [{ label := "heat", excessPenalty := some (.s (-1)) }] }

theorem exReward_fits : exReward.Fits exSys.n := by
  refine ⟨?_, by simp [exReward], ?_⟩
  · simp only [exReward, List.forall_mem_cons, List.not_mem_nil, false_imp_iff, implies_true, and_true]
    constructor <;> simp
  · simp only [exReward, List.forall_mem_cons, List.not_mem_nil, false_imp_iff, implies_true, and_true]
    intro pen hp
    cases hp
    exact Or.inl rfl

/-- **C95 fails for negative penalties:** the model is built without complaint, has solutions, but none of them is the cheapest. -/
theorem C95_wrong : ∃ o, systemModel exSys exReward = .ok o ∧ (∃ σ, o.solver.Solves σ) ∧ ∀ σ, ¬ o.Optimal σ := by
  obtain ⟨o, h⟩ : ∃ o, systemModel exSys exReward = .ok o := builds (by decide +kernel)
  obtain ⟨o', h', hlab⟩ := of_okB (p := fun o : SysOut => o.comps.isEmpty && decide ("heat_excess_input" ∉ o.coll.tree.labels ∧ "heat_excess_output" ∉ o.coll.tree.labels))
    (r := systemModel exSys exReward) (by decide +kernel)
  rw [h] at h'
  cases h'
  simp only [Bool.and_eq_true, List.isEmpty_iff, decide_eq_true_eq] at hlab
  obtain ⟨hnil, l1, l2⟩ := hlab
  have hin : ("heat" ++ "_" ++ "excess_input" : String) = "heat_excess_input" := by decide +kernel
  have hout : ("heat" ++ "_" ++ "excess_output" : String) = "heat_excess_output" := by decide +kernel
  have make : ∀ m : ℚ, 0 ≤ m → ∃ σ, o.solver.Solves σ ∧ exReward.cost exSys { label := "costs", isStandard := true, isObjective := true } σ = -8 * m := by
    intro m hm
    obtain ⟨σ, h1, h2, h3⟩ := solution_complete exSys_valid (by decide) exReward_fits h (σ := fun _ _ => m) (by rw [hnil]; simp) (by
      intro b hb
      simp only [exReward, List.mem_cons, List.not_mem_nil, or_false] at hb
      subst hb
      refine ⟨by simp, fun _ t _ => ⟨hm, hm, ?_⟩⟩
      simp [fedInto, takenFrom, exReward]) (T := ⟨fun _ _ => 0, fun _ => 0⟩) (by
      intro e he
      simp only [exReward, List.mem_cons, List.not_mem_nil, or_false] at he
      subst he
      constructor <;> simp [exReward, System.opOf, System.invOf]) (by
      intro e he
      simp only [exReward, List.mem_cons, List.not_mem_nil, or_false] at he
      subst he
      constructor <;> simp)
    obtain ⟨k1, k2⟩ := h3 { label := "costs", isStandard := true, isObjective := true } (by simp [exReward])
    refine ⟨σ, h1, ?_⟩
    simp only [opTSL, invSumL] at k1 k2
    unfold System.cost
    rw [k1, k2]
    simp only [exReward, List.map_cons, List.map_nil, List.sum_cons, List.sum_nil, BusData.penaltyCost, hin, hout, h2 _ l1, h2 _ l2]
    simp [exSys, Finset.sum_range_succ, Num.at]
    ring
  obtain ⟨σ₀, h₀, _⟩ := make 0 le_rfl
  refine ⟨o, h, ⟨σ₀, h₀⟩, fun σ hσ => ?_⟩
  obtain ⟨hs, terms, ht, hmin⟩ := hσ
  obtain ⟨terms', e, ht', he, hc⟩ := solution_cost exSys_valid (by decide) exReward_fits h
  rw [ht] at ht'
  cases ht'
  have he' : e = { label := "costs", isStandard := true, isObjective := true } := by
    simp only [exReward, List.find?_cons, Option.some.injEq] at he
    exact he.symm
  subst he'
  obtain ⟨τ, hτ, hval⟩ := make (|termsVal σ terms| + 1) (by positivity)
  have := hmin τ hτ
  rw [hc τ hτ, hval] at this
  have a := neg_abs_le (termsVal σ terms)
  have b := abs_nonneg (termsVal σ terms)
  linarith

end Flix
