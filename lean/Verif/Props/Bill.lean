import Verif.Spec.Bill
import Verif.Props.Prices
import Verif.Props.Energy
import Verif.Props.Penalties
import Verif.Props.Idle

/-!
# C125: what a change of prices costs
-/

namespace Flix

variable {sys : Sys} {s s' : System} {o o' : SysOut} {σ : Assignment}

theorem sum_only {α : Type} {xs : List α} {L : α → String} {c : String} (F : α → ℚ) (hnd : (xs.map L).Nodup) {a : α} (ha : a ∈ xs) (hc : L a = c) :
    (xs.map fun k => if L k = c then F k else 0).sum = F a := by
  induction xs with
  | nil => cases ha
  | cons x xs ih =>
    rw [List.map_cons, List.nodup_cons] at hnd
    rw [List.map_cons, List.sum_cons]
    rcases List.mem_cons.1 ha with rfl | ha
    · rw [if_pos hc, List.sum_eq_zero, add_zero]
      intro y hy
      obtain ⟨z, hz, rfl⟩ := List.mem_map.1 hy
      refine if_neg fun e => hnd.1 ?_
      rw [hc, ← e]
      exact List.mem_map_of_mem hz
    · rw [if_neg, zero_add, ih hnd.2 ha]
      intro e
      exact hnd.1 (by rw [e, ← hc]; exact List.mem_map_of_mem ha)

theorem count_one {c f : String} (h : s.HasFlow c f) (hnd : (s.comps.map Comp.label).Nodup) (hfn : ∀ k ∈ s.comps, (k.flows.map (·.label)).Nodup) : s.count c f = 1 := by
  obtain ⟨k, hk, hkc, x, hx, hxf⟩ := h
  unfold System.count
  rw [sum_only (fun k => (k.flows.map fun x => if x.label = f then (1 : ℚ) else 0).sum) hnd hk hkc]
  exact sum_only (fun _ => (1 : ℚ)) (hfn k hk) hx hxf

/-- What the components cost more at other prices of a flow. -/
theorem priced_extra {c f : String} {new : EffDict} {l₀ : String} {d : Nat → ℚ} (hfl : s.HasFlow c f) (hnd : (s.comps.map Comp.label).Nodup)
    (hfn : ∀ k ∈ s.comps, (k.flows.map (·.label)).Nodup)
    (hdear : ∀ k ∈ s.comps, k.label = c → ∀ x ∈ k.flows, x.label = f → DearerBy s.effects sys.n l₀ d x.effectsPerFlowHour new) :
    (∀ l, l ≠ l₀ → ∀ σ, (∀ t < sys.n, (s.mapFlow c f (FlowData.priced new)).opOf sys σ l t = s.opOf sys σ l t) ∧ (s.mapFlow c f (FlowData.priced new)).invOf σ l = s.invOf σ l) ∧
      ∀ σ, s.extra sys (s.mapFlow c f (FlowData.priced new)) l₀ σ = addedBill sys c f d σ := by
  have one := count_one hfl hnd hfn
  have op : ∀ l τ, ∀ t < sys.n, (s.mapFlow c f (FlowData.priced new)).opOf sys τ l t = s.opOf sys τ l t +
      (if l = l₀ then d t else 0) * (sys.width t * τ (rateL c f) t) := by
    intro l τ t ht
    rw [mapFlow_op (g := FlowData.priced new) (A := (if l = l₀ then d t else 0) * (sys.width t * τ (rateL c f) t)) fun k hk hkc x hx hxf => ?_, one, one_mul]
    have := hdear k hk hkc x hx hxf l t ht
    unfold flowOperation FlowData.priced
    simp only
    rw [this, hxf]
    ring
  have inv : ∀ l τ, (s.mapFlow c f (FlowData.priced new)).invOf τ l = s.invOf τ l := by
    intro l τ
    rw [mapFlow_inv (g := FlowData.priced new) (B := 0) fun k hk hkc x hx hxf => (add_zero _).symm, mul_zero, add_zero]
  refine ⟨fun l hne τ => ⟨fun t ht => by rw [op l τ t ht, if_neg hne, zero_mul, add_zero], inv l τ⟩, fun τ => ?_⟩
  unfold System.extra addedBill
  rw [inv, sub_self, add_zero]
  refine Finset.sum_congr rfl fun t ht => ?_
  rw [op _ _ t (Finset.mem_range.1 ht), if_pos rfl]
  change _ = d t * (sys.width t * τ (rateL c f) t)
  ring

/-- Solutions at the old prices and solutions at the new ones. -/
theorem Repriced.moves {c f : String} {new : EffDict} {d : Nat → ℚ} {e : EffectData} (h : Repriced sys s c f new d e o o') :
    ∃ t₁ t₂, objectiveTerms o.solver.objective = .ok t₁ ∧ objectiveTerms o'.solver.objective = .ok t₂ ∧
      (∀ σ, o.solver.Solves σ → ∃ σ', o'.solver.Solves σ' ∧ (∀ l, l ∉ o'.coll.tree.labels → σ' l = σ l) ∧ termsVal σ' t₂ = termsVal σ t₁ + addedBill sys c f d σ) ∧
      ∀ σ, o'.solver.Solves σ → ∃ σ', o.solver.Solves σ' ∧ (∀ l, l ∉ o.coll.tree.labels → σ' l = σ l) ∧ termsVal σ' t₁ = termsVal σ t₂ - addedBill sys c f d σ := by
  obtain ⟨oth, val⟩ := priced_extra h.flow h.labels h.flowLabels h.dearer
  have free := mapFlow_freer (s := s) (big := sys.cfg.big) (n := sys.n) (priced_same new) c f
  obtain ⟨t₁, t₂, e1, e2, move⟩ := other_prices h.valid h.before h.steps h.fits h.fits' h.proper h.proper' h.model h.model' rfl rfl free.1 h.objective h.plain oth
  obtain ⟨t₂', t₁', e2', e1', back⟩ := other_prices h.valid h.before h.steps h.fits' h.fits h.proper' h.proper h.model' h.model rfl rfl free.2 h.objective h.plain
    (fun l hne σ => ⟨fun t ht => ((oth l hne σ).1 t ht).symm, (oth l hne σ).2.symm⟩)
  rw [e1] at e1'
  cases e1'
  rw [e2] at e2'
  cases e2'
  refine ⟨t₁, t₂, e1, e2, fun σ hs => ?_, fun σ hs => ?_⟩
  · obtain ⟨σ', a, b, q⟩ := move σ hs
    exact ⟨σ', a, b, by rw [q, val]⟩
  · obtain ⟨σ', a, b, q⟩ := back σ hs
    refine ⟨σ', a, b, ?_⟩
    have neg : (s.mapFlow c f (FlowData.priced new)).extra sys s e.label σ = - s.extra sys (s.mapFlow c f (FlowData.priced new)) e.label σ := by
      unfold System.extra
      rw [neg_add, ← Finset.sum_neg_distrib]
      simp only [neg_sub]
    rw [q, neg, val]
    ring

/-- **C125.**  A change of the prices of a flow changes the least cost by at most what the flow as used before costs more, and by at least what the flow as used afterwards costs more. -/
theorem C125 {c f : String} {new : EffDict} {d : Nat → ℚ} {e : EffectData} (h : Repriced sys s c f new d e o o') {σ σ' : Assignment} (ho : o.Optimal σ) (ho' : o'.Optimal σ')
    {a b : ℚ} (ca : o.Costs σ a) (cb : o'.Costs σ' b) : addedBill sys c f d σ' ≤ b - a ∧ b - a ≤ addedBill sys c f d σ := by
  obtain ⟨t₁, t₂, e1, e2, move, back⟩ := h.moves
  obtain ⟨hs, t, et, hmin⟩ := ho
  rw [e1] at et
  cases et
  obtain ⟨hs', t, et, hmin'⟩ := ho'
  rw [e2] at et
  cases et
  obtain ⟨t, et, rfl⟩ := ca
  rw [e1] at et
  cases et
  obtain ⟨t, et, rfl⟩ := cb
  rw [e2] at et
  cases et
  obtain ⟨ρ, r1, _, r3⟩ := move σ hs
  obtain ⟨ρ', q1, _, q3⟩ := back σ' hs'
  have := hmin' ρ r1
  have := hmin ρ' q1
  constructor <;> linarith

theorem bill_other {c f : String} {d : Nat → ℚ} {σ τ : Assignment} (h : ∀ t < sys.n, τ (c ++ "__" ++ f ++ "_" ++ "flow_rate") t = σ (c ++ "__" ++ f ++ "_" ++ "flow_rate") t) :
    addedBill sys c f d τ = addedBill sys c f d σ := by
  unfold addedBill
  exact Finset.sum_congr rfl fun t ht => by rw [h t (Finset.mem_range.1 ht)]

/-- Flow rates are no variables of the effects. -/
theorem rate_outside {c f : String} (h : systemModel sys s = .ok o) (hfl : s.HasFlow c f) : c ++ "__" ++ f ++ "_" ++ "flow_rate" ∉ o.coll.tree.labels := by
  obtain ⟨k, hk, rfl, x, hx, rfl⟩ := hfl
  obtain ⟨oc, hoc, hm⟩ := forall₂_mem_left (system_inv h).1 hk
  obtain ⟨y, hy, hl⟩ := rate_hasVar hm hx
  have := physical_label h (Or.inl ⟨oc, hoc, hy⟩)
  rwa [hl] at this

/-- **C125 (kept).**  If no operation is hit less by the change than a cheapest one, the cheapest one stays cheapest, with exactly the additional bill. -/
theorem C125_kept {c f : String} {new : EffDict} {d : Nat → ℚ} {e : EffectData} (h : Repriced sys s c f new d e o o') {σ : Assignment} (ho : o.Optimal σ)
    (hleast : ∀ τ, o.solver.Solves τ → addedBill sys c f d σ ≤ addedBill sys c f d τ) {a : ℚ} (ca : o.Costs σ a) :
    ∃ σ', o'.Optimal σ' ∧ (∀ l, l ∉ o'.coll.tree.labels → σ' l = σ l) ∧ o'.Costs σ' (a + addedBill sys c f d σ) := by
  obtain ⟨t₁, t₂, e1, e2, move, back⟩ := h.moves
  obtain ⟨hs, t, et, hmin⟩ := ho
  rw [e1] at et
  cases et
  obtain ⟨t, et, rfl⟩ := ca
  rw [e1] at et
  cases et
  obtain ⟨ρ, r1, r2, r3⟩ := move σ hs
  refine ⟨ρ, ⟨r1, t₂, e2, fun τ hτ => ?_⟩, r2, t₂, e2, r3⟩
  obtain ⟨τ', q1, q2, q3⟩ := back τ hτ
  have same : addedBill sys c f d τ' = addedBill sys c f d τ := bill_other fun t _ => by rw [q2 _ (rate_outside h.model h.flow)]
  have := hmin τ' q1
  have := hleast τ' q1
  linarith

/-- **C125 (fixed).**  The price of a flow whose flow rates are fixed decides nothing: every cheapest operation stays cheapest and costs more by exactly the fixed flow hours at the difference
of the prices. -/
theorem C125_fixed {c f : String} {new : EffDict} {d : Nat → ℚ} {e : EffectData} (h : Repriced sys s c f new d e o o') {v : Nat → ℚ}
    (hfix : ∀ τ, o.solver.Solves τ → ∀ t < sys.n, τ (c ++ "__" ++ f ++ "_" ++ "flow_rate") t = v t) {σ : Assignment} (ho : o.Optimal σ) {a : ℚ} (ca : o.Costs σ a) :
    ∃ σ', o'.Optimal σ' ∧ (∀ l, l ∉ o'.coll.tree.labels → σ' l = σ l) ∧ o'.Costs σ' (a + ∑ t ∈ Finset.range sys.n, d t * (sys.width t * v t)) := by
  have val : ∀ τ, o.solver.Solves τ → addedBill sys c f d τ = ∑ t ∈ Finset.range sys.n, d t * (sys.width t * v t) := by
    intro τ hτ
    unfold addedBill
    exact Finset.sum_congr rfl fun t ht => by rw [hfix τ hτ t (Finset.mem_range.1 ht)]
  have key := C125_kept h ho (fun τ hτ => by rw [val _ ho.1, val τ hτ]) ca
  rwa [val _ ho.1] at key

/-- Flow rates of flows that run forward are not negative. -/
theorem rate_nonneg (hv : sys.Valid) (hb : 0 ≤ sys.cfg.big) {k : Comp} {oc : CompOut} (h : k.model sys = .ok oc) (hs : oc.tree.Solves σ) {x : FlowData} (hx : x ∈ k.flows)
    (hfit : x.Fits sys.n) (hfw : x.Forward sys) : ∀ t < sys.n, 0 ≤ σ (rateL k.label x.label) t := by
  cases k with
  | plain c => exact comp_nonneg hv hb (show compModel sys c = .ok oc from h) hs hx hfit hfw
  | converter c =>
    obtain ⟨o0, h0, _, _, _, _, hbase⟩ := converter_base (show converterModel sys c = .ok oc from h)
    exact comp_nonneg hv hb h0 (hbase σ hs) hx hfit hfw
  | storage st =>
    obtain ⟨o, ho, rfl⟩ := map_ok.1 (show (·.comp) <$> storageModel sys st = .ok oc from h)
    obtain ⟨o0, h0, _, _, _, _, hbase⟩ := storage_base ho
    exact comp_nonneg hv hb h0 (hbase σ hs) hx hfit hfw
  | transmission t =>
    obtain ⟨o, ho, rfl⟩ := map_ok.1 (show (·.comp) <$> transmissionModel sys t = .ok oc from h)
    obtain ⟨o0, h0, _, _, _, hbase⟩ := trans_base ho
    have via : ∀ y, y ∈ (t.comp sys.cfg).inputs ++ (t.comp sys.cfg).outputs → y.label = x.label → y.Fits sys.n → y.Forward sys → ∀ k < sys.n, 0 ≤ σ (rateL t.label x.label) k := by
      intro y hy hl h1 h2
      have := comp_nonneg hv hb h0 (hbase σ hs) hy h1 h2
      rwa [hl] at this
    simp only [Comp.flows, Comp.inputs, Comp.outputs, List.mem_append, List.mem_cons, Option.mem_toList] at hx
    rcases hx with (rfl | hx) | (rfl | hx)
    · exact via (t.fill t.in1) (by simp [TransData.comp]) (fill_label _ _) (fill_fits hfit) (forward_fill hfw)
    · exact via (t.fillIn2 sys.cfg (t.fill x)) (by simp [TransData.comp, hx]) (by rw [fillIn2_label, fill_label]) (fillIn2_fits (fill_fits hfit)) (forward_fillIn2 (forward_fill hfw))
    · exact via (t.fill t.out1) (by simp [TransData.comp]) (fill_label _ _) (fill_fits hfit) (forward_fill hfw)
    · exact via (t.fill x) (by simp [TransData.comp, hx]) (fill_label _ _) (fill_fits hfit) (forward_fill hfw)

/-- What a rise adds to the bill of a flow that runs forward is not negative. -/
theorem bill_nonneg {c f : String} {new : EffDict} {d : Nat → ℚ} {e : EffectData} (h : Repriced sys s c f new d e o o') (hb : 0 ≤ sys.cfg.big)
    (hfw : ∀ k ∈ s.comps, k.label = c → ∀ x ∈ k.flows, x.label = f → x.Fits sys.n ∧ x.Forward sys) (hd : ∀ t < sys.n, 0 ≤ d t) {τ : Assignment} (hτ : o.solver.Solves τ) :
    0 ≤ addedBill sys c f d τ := by
  unfold addedBill
  refine Finset.sum_nonneg fun t ht => ?_
  have ht := Finset.mem_range.1 ht
  refine mul_nonneg (hd t ht) (mul_nonneg (h.valid.width_pos ht).le ?_)
  obtain ⟨k, hk, hkc, x, hx, hxf⟩ := h.flow
  obtain ⟨oc, hoc, hm⟩ := forall₂_mem_left (system_inv h.model).1 hk
  have q := hfw k hk hkc x hx hxf
  have := rate_nonneg h.valid hb hm (((system_solves h.model τ).1 hτ).2.1 oc hoc) hx q.1 q.2 t ht
  rw [hkc, hxf] at this
  exact this

/-- **C125 (rise).**  If a flow that runs forward becomes dearer in some steps and cheaper in none, the least cost does not fall. -/
theorem C125_rise {c f : String} {new : EffDict} {d : Nat → ℚ} {e : EffectData} (h : Repriced sys s c f new d e o o') (hb : 0 ≤ sys.cfg.big)
    (hfw : ∀ k ∈ s.comps, k.label = c → ∀ x ∈ k.flows, x.label = f → x.Fits sys.n ∧ x.Forward sys) (hd : ∀ t < sys.n, 0 ≤ d t) {σ σ' : Assignment} (ho : o.Optimal σ)
    (ho' : o'.Optimal σ') {a b : ℚ} (ca : o.Costs σ a) (cb : o'.Costs σ' b) : a ≤ b := by
  have key := (C125 h ho ho' ca cb).1
  obtain ⟨t₁, t₂, e1, e2, move, back⟩ := h.moves
  obtain ⟨τ', q1, q2, q3⟩ := back σ' ho'.1
  have same : addedBill sys c f d τ' = addedBill sys c f d σ' := bill_other fun t _ => by rw [q2 _ (rate_outside h.model h.flow)]
  have := bill_nonneg h hb hfw hd q1
  linarith

/-- **C125 (between).**  The least cost at prices between two others is at least as much between the least costs at these: prices that vary are never worse than their mean. -/
theorem C125_between {c f : String} {new₁ new₂ : EffDict} {d₁ d₂ : Nat → ℚ} {e : EffectData} {o₁ o₂ : SysOut} (h₁ : Repriced sys s c f new₁ d₁ e o o₁)
    (h₂ : Repriced sys s c f new₂ d₂ e o o₂) {w₁ w₂ : ℚ} (hw₁ : 0 ≤ w₁) (hw₂ : 0 ≤ w₂) (hw : w₁ + w₂ = 1) (hd : ∀ t < sys.n, w₁ * d₁ t + w₂ * d₂ t = 0) {σ σ₁ σ₂ : Assignment}
    (ho : o.Optimal σ) (ho₁ : o₁.Optimal σ₁) (ho₂ : o₂.Optimal σ₂) {a b₁ b₂ : ℚ} (ca : o.Costs σ a) (cb₁ : o₁.Costs σ₁ b₁) (cb₂ : o₂.Costs σ₂ b₂) : w₁ * b₁ + w₂ * b₂ ≤ a := by
  have k₁ := mul_le_mul_of_nonneg_left (C125 h₁ ho ho₁ ca cb₁).2 hw₁
  have k₂ := mul_le_mul_of_nonneg_left (C125 h₂ ho ho₂ ca cb₂).2 hw₂
  have zero : w₁ * addedBill sys c f d₁ σ + w₂ * addedBill sys c f d₂ σ = 0 := by
    unfold addedBill
    rw [Finset.mul_sum, Finset.mul_sum, ← Finset.sum_add_distrib]
    refine Finset.sum_eq_zero fun t ht => ?_
    have := congrArg (· * (sys.width t * σ (c ++ "__" ++ f ++ "_" ++ "flow_rate") t)) (hd t (Finset.mem_range.1 ht))
    simp only [zero_mul] at this
    linarith
  have : a = w₁ * a + w₂ * a := by rw [← add_mul, hw, one_mul]
  linarith

/-- **C125 (unused).**  If a cheapest operation does not use a flow, it stays cheapest at the same cost when the flow becomes dearer, in whatever steps. -/
theorem C125_unused {c f : String} {new : EffDict} {d : Nat → ℚ} {e : EffectData} (h : Repriced sys s c f new d e o o') (hb : 0 ≤ sys.cfg.big)
    (hfw : ∀ k ∈ s.comps, k.label = c → ∀ x ∈ k.flows, x.label = f → x.Fits sys.n ∧ x.Forward sys) (hd : ∀ t < sys.n, 0 ≤ d t) {σ : Assignment} (ho : o.Optimal σ)
    (hno : ∀ t < sys.n, σ (c ++ "__" ++ f ++ "_" ++ "flow_rate") t = 0) {a : ℚ} (ca : o.Costs σ a) :
    ∃ σ', o'.Optimal σ' ∧ (∀ l, l ∉ o'.coll.tree.labels → σ' l = σ l) ∧ o'.Costs σ' a := by
  have zero : addedBill sys c f d σ = 0 := by
    unfold addedBill
    exact Finset.sum_eq_zero fun t ht => by rw [hno t (Finset.mem_range.1 ht), mul_zero, mul_zero]
  have key := C125_kept h ho (fun τ hτ => by rw [zero]; exact bill_nonneg h hb hfw hd hτ) ca
  rwa [zero, add_zero] at key

/-! ## Examples -/

def exBillGen (p : ℚ) : FlowData := { label := "Q", bus := "heat", size := .num 10, effectsPerFlowHour := [(some "costs", .s p)] }

def exBillLoad (p : ℚ) : FlowData := { label := "Q", bus := "heat", size := .num 2, relMin := .s 1, effectsPerFlowHour := [(some "costs", .s p)] }

/-- A generator at 1 per flow hour, a reserve at `r` and a fixed load at `q`. -/
def exBill (q r : ℚ) : System :=
  { effects := [{ label := "costs", isStandard := true, isObjective := true }]
    comps := [.plain { label := "Gen", inputs := [], outputs := [exBillGen 1] }, .plain { label := "Reserve", inputs := [], outputs := [exBillGen r] },
      .plain { label := "Load", inputs := [exBillLoad q], outputs := [] }]
    buses := [{ label := "heat", excessPenalty := none }] }

/-- The generator alone covers the load. -/
def exBillSol (q : ℚ) : Assignment := tableSol
  [("Gen__Q_flow_rate", [2, 2, 2]), ("Gen__Q_sumFlowHours", [8]), ("Load__Q_flow_rate", [2, 2, 2]), ("Load__Q_sumFlowHours", [8]),
   ("costs__Gen__Q__effects_per_flow_hour", [2, 2, 4]), ("costs__Load__Q__effects_per_flow_hour", [2 * q, 2 * q, 4 * q]),
   ("costs__operation_operation_sum_TS", [2 + 2 * q, 2 + 2 * q, 4 + 4 * q]), ("costs__operation_operation_sum", [8 + 8 * q]), ("costs__all_all_sum", [8 + 8 * q]),
   ("costs__operation", [8 + 8 * q])]

theorem exBillGen_ok (p : ℚ) : (exBillGen p).Fits exSys.n ∧ (exBillGen p).Sensible exSys.cfg exSys.n ∧ (exBillGen p).Proper exSys.n := by
  refine ⟨⟨Or.inl rfl, Or.inl rfl, ?_, ?_⟩, ⟨⟨?_, ?_⟩, ?_, ?_⟩, ?_, ?_⟩
  all_goals first
    | (simp [exBillGen, exSys, exCfg, Num.Fits, Num.len]; done)
    | (intro t ht; simp [exBillGen, FlowData.lowRel, FlowData.highRel, Num.at]; done)

theorem exBillLoad_ok (p : ℚ) : (exBillLoad p).Fits exSys.n ∧ (exBillLoad p).Sensible exSys.cfg exSys.n ∧ (exBillLoad p).Proper exSys.n := by
  refine ⟨⟨Or.inl rfl, Or.inl rfl, ?_, ?_⟩, ⟨⟨?_, ?_⟩, ?_, ?_⟩, ?_, ?_⟩
  all_goals first
    | (simp [exBillLoad, exSys, exCfg, Num.Fits, Num.len]; done)
    | (intro t ht; simp [exBillLoad, FlowData.lowRel, FlowData.highRel, Num.at]; done)

theorem exBill_proper (q r : ℚ) : ∀ c ∈ (exBill q r).comps, c.Proper exSys ∧ c.CapacityNonneg := by
  intro c hc
  simp only [exBill, List.mem_cons, List.not_mem_nil, or_false] at hc
  rcases hc with rfl | rfl | rfl
  · have g := exBillGen_ok 1
    exact ⟨⟨by simp, by simpa using g.1, by simpa using g.2.1, by simpa using g.2.2, by simp⟩, trivial⟩
  · have g := exBillGen_ok r
    exact ⟨⟨by simp, by simpa using g.1, by simpa using g.2.1, by simpa using g.2.2, by simp⟩, trivial⟩
  · have g := exBillLoad_ok q
    exact ⟨⟨by simp, by simpa using g.1, by simpa using g.2.1, by simpa using g.2.2, by simp⟩, trivial⟩

theorem exBill_fits (q r : ℚ) : (exBill q r).Fits exSys.n := by
  refine ⟨?_, ?_, ?_⟩
  · simp only [exBill, List.forall_mem_cons, List.not_mem_nil, false_imp_iff, implies_true, and_true]
    constructor <;> simp
  · simp only [exBill, List.forall_mem_cons, List.not_mem_nil, false_imp_iff, implies_true, and_true]
    refine ⟨⟨?_, by simp [Comp.onOff], by simp⟩, ⟨?_, by simp [Comp.onOff], by simp⟩, ⟨?_, by simp [Comp.onOff], by simp⟩⟩
    all_goals
      simp only [Comp.flows, Comp.inputs, Comp.outputs, List.nil_append, List.append_nil, List.forall_mem_cons, List.not_mem_nil, false_imp_iff, implies_true, and_true]
    · exact ⟨by simp [exBillGen, EffDict.Series, Num.isScalar], by simp [exBillGen], by simp [exBillGen]⟩
    · exact ⟨by simp [exBillGen, EffDict.Series, Num.isScalar], by simp [exBillGen], by simp [exBillGen]⟩
    · exact ⟨by simp [exBillLoad, EffDict.Series, Num.isScalar], by simp [exBillLoad], by simp [exBillLoad]⟩
  · simp [exBill]

/-- The load is fixed. -/
theorem exBill_load {q r : ℚ} (h : systemModel exSys (exBill q r) = .ok o) (hs : o.solver.Solves σ) : ∀ t < exSys.n, σ "Load__Q_flow_rate" t = 2 := by
  obtain ⟨oc, hoc, hm⟩ := forall₂_mem_left (system_inv h).1 (show Comp.plain { label := "Load", inputs := [exBillLoad q], outputs := [] } ∈ _ by simp [exBill])
  have sol := ((comp_solves hm σ).2 (((system_solves h σ).1 hs).2.1 oc hoc)).1
  obtain ⟨p, hp, _, hfm⟩ := forall₂_mem_left (comp_inv hm).1 (List.mem_singleton.2 rfl)
  have e : fillOnOff { label := "Load", inputs := [exBillLoad q], outputs := [] } (exBillLoad q) = exBillLoad q := rfl
  rw [e] at hfm
  have rows := (flow_iff exSys_valid (exBillLoad_ok q).1 hfm σ).1 (sol p (List.mem_append_left _ hp))
  intro t ht
  have lo := rows.lower rfl t ht
  have hi := rows.upper rfl t ht
  rw [(flowRate_ok (flow_inv hfm).1).1] at lo hi
  have v : ((exBillLoad q).absBounds exSys.cfg).1.at t = 2 ∧ ((exBillLoad q).absBounds exSys.cfg).2.at t = 2 := by
    constructor <;> norm_num [exBillLoad, FlowData.absBounds, FlowData.relBounds, FlowData.effSize, pyOr, Num.at, Num.map]
  rw [v.1] at lo
  rw [v.2] at hi
  exact le_antisymm hi lo

/-- What a solution costs. -/
theorem exBill_cost {q r : ℚ} (h : systemModel exSys (exBill q r) = .ok o) : ∃ terms, objectiveTerms o.solver.objective = .ok terms ∧ ∀ σ, o.solver.Solves σ →
    termsVal σ terms = ∑ t ∈ Finset.range 3, exSys.width t * (σ "Gen__Q_flow_rate" t + r * σ "Reserve__Q_flow_rate" t + q * σ "Load__Q_flow_rate" t) := by
  obtain ⟨terms, e, ht, he, hc⟩ := solution_cost exSys_valid (by decide) (exBill_fits q r) h
  have : e = { label := "costs", isStandard := true, isObjective := true } := by
    simpa [exBill] using he.symm
  subst this
  refine ⟨terms, ht, fun σ hs => ?_⟩
  obtain ⟨tb, -⟩ := solution_totals exSys_valid (by decide) (exBill_fits q r) h hs
  obtain ⟨u1, u2⟩ := tb _ (List.mem_of_find?_eq_some he)
  rw [hc σ hs]
  unfold System.cost
  change σ (invSumL "costs") 0 = _ at u2
  rw [show σ ("costs" ++ "__invest_invest_sum") 0 = _ from u2]
  have op : ∀ t < 3, σ ("costs" ++ "__operation_operation_sum_TS") t =
      exSys.width t * (σ "Gen__Q_flow_rate" t + r * σ "Reserve__Q_flow_rate" t + q * σ "Load__Q_flow_rate" t) := by
    intro t ht
    rw [show σ ("costs" ++ "__operation_operation_sum_TS") t = _ from u1 t ht]
    simp [exBill, System.opOf, Comp.operation, Comp.flows, Comp.inputs, Comp.outputs, Comp.onOff, Comp.label, flowOperation, onOffOperation, effVal, names, exBillGen, exBillLoad, Num.at, rateL]
    ring
  rw [show exSys.n = 3 from rfl, Finset.sum_congr rfl fun t ht => op t (Finset.mem_range.1 ht)]
  simp [exBill, System.invOf, Comp.investment, Comp.flows, Comp.inputs, Comp.outputs, flowInvestment, exBillGen, exBillLoad, BusData.penaltyCost]

theorem exBill_forward (p : ℚ) : (exBillGen p).Forward exSys := by
  refine ⟨fun t ht => ?_, fun x hx => ?_, fun q hq => ?_⟩
  · norm_num [exBillGen, FlowData.relBounds, Num.at]
  · simp [exBillGen] at hx
    rw [← hx]
    norm_num
  · simp [exBillGen] at hq

/-- Generator and reserve cover the load. -/
theorem exBill_balance {q r : ℚ} (h : systemModel exSys (exBill q r) = .ok o) (hs : o.solver.Solves σ) :
    ∀ t < exSys.n, σ "Gen__Q_flow_rate" t + σ "Reserve__Q_flow_rate" t = 2 ∧ 0 ≤ σ "Reserve__Q_flow_rate" t := by
  intro t ht
  have bal := (C27_system exSys_valid h hs (b := { label := "heat", excessPenalty := none }) (by simp [exBill])).1 rfl t ht
  have load := exBill_load h hs t ht
  obtain ⟨oc, hoc, hm⟩ := forall₂_mem_left (system_inv h).1 (show Comp.plain { label := "Reserve", inputs := [], outputs := [exBillGen r] } ∈ _ by simp [exBill])
  have pos := rate_nonneg exSys_valid (by norm_num [exSys, exCfg]) hm (((system_solves h σ).1 hs).2.1 oc hoc) (x := exBillGen r) (by simp [Comp.flows, Comp.inputs, Comp.outputs]) (exBillGen_ok r).1
    (exBill_forward r) t ht
  simp [fedInto, takenFrom, exBill, Comp.inputs, Comp.outputs, Comp.label, exBillGen, exBillLoad, rateL] at bal pos
  exact ⟨by linarith, pos⟩

/-- Where the reserve is no cheaper than the generator, not to use it is cheapest. -/
theorem exBill_optimal {q r : ℚ} (h : systemModel exSys (exBill q r) = .ok o) (hr : 1 ≤ r) (hs : o.solver.Solves σ) (hno : ∀ t < exSys.n, σ "Reserve__Q_flow_rate" t = 0) : o.Optimal σ := by
  obtain ⟨terms, ht, hc⟩ := exBill_cost h
  refine ⟨hs, terms, ht, fun τ hτ => ?_⟩
  rw [hc σ hs, hc τ hτ]
  refine Finset.sum_le_sum fun t ht => mul_le_mul_of_nonneg_left ?_ (exSys_valid.width_pos (Finset.mem_range.1 ht)).le
  have ht : t < exSys.n := Finset.mem_range.1 ht
  have a := exBill_balance h hs t ht
  have b := exBill_balance h hτ t ht
  rw [exBill_load h hs t ht, exBill_load h hτ t ht, hno t ht] at *
  nlinarith

theorem exBill_bill {q r : ℚ} (h : systemModel exSys (exBill q r) = .ok o) (hs : o.solver.Solves σ) (hno : ∀ t < exSys.n, σ "Reserve__Q_flow_rate" t = 0) : o.Costs σ (8 + 8 * q) := by
  obtain ⟨terms, ht, hc⟩ := exBill_cost h
  refine ⟨terms, ht, ?_⟩
  rw [hc σ hs]
  have e : ∀ t ∈ Finset.range 3, exSys.width t * (σ "Gen__Q_flow_rate" t + r * σ "Reserve__Q_flow_rate" t + q * σ "Load__Q_flow_rate" t) = exSys.width t * (2 + 2 * q) := by
    intro t ht
    have ht : t < exSys.n := Finset.mem_range.1 ht
    have a := exBill_balance h hs t ht
    rw [exBill_load h hs t ht, hno t ht] at *
    rw [show σ "Gen__Q_flow_rate" t = 2 by linarith]
    ring
  rw [Finset.sum_congr rfl e]
  norm_num [Finset.sum_range_succ, Sys.width, exSys]
  ring

theorem exBill_plain (q r : ℚ) : ∀ x ∈ (exBill q r).effects, x.label = "costs" → x.Plain := by
  simp only [exBill, List.forall_mem_cons, List.not_mem_nil, false_imp_iff, implies_true, and_true]
  exact fun _ => ⟨rfl, rfl, rfl, rfl, rfl, rfl, rfl, rfl, rfl, rfl⟩

theorem exBill_flowLabels (q r : ℚ) : ∀ k ∈ (exBill q r).comps, (k.flows.map (·.label)).Nodup := by
  simp [exBill, Comp.flows, Comp.inputs, Comp.outputs]

/-- The load at another price. -/
theorem exBill_loadPrice {q q' r : ℚ} {o o' : SysOut} (h : systemModel exSys (exBill q r) = .ok o) (h' : systemModel exSys (exBill q' r) = .ok o') :
    Repriced exSys (exBill q r) "Load" "Q" [(some "costs", .s q')] (fun _ => q' - q) { label := "costs", isStandard := true, isObjective := true } o o' := by
  have e : (exBill q r).mapFlow "Load" "Q" (FlowData.priced [(some "costs", .s q')]) = exBill q' r := by
    unfold System.mapFlow exBill
    simp [Comp.label, Comp.mapFlows, FlowData.priced, exBillGen, exBillLoad]
  refine ⟨exSys_valid, by simp [exSys, Num.Nonneg], by decide, exBill_fits q r, by rw [e]; exact exBill_fits q' r, exBill_proper q r, by rw [e]; exact exBill_proper q' r, h, by rw [e]; exact h',
    by simp [exBill], exBill_plain q r, ⟨.plain { label := "Load", inputs := [exBillLoad q], outputs := [] }, by simp [exBill], rfl, exBillLoad q, by simp [Comp.flows, Comp.inputs], rfl⟩,
    by simp [exBill, Comp.label], exBill_flowLabels q r, ?_⟩
  intro k hk hl x hx _ l t _
  simp only [exBill, List.mem_cons, List.not_mem_nil, or_false] at hk
  rcases hk with rfl | rfl | rfl
  · simp [Comp.label] at hl
  · simp [Comp.label] at hl
  · simp only [Comp.flows, Comp.inputs, Comp.outputs, List.append_nil, List.mem_singleton] at hx
    subst hx
    by_cases hl : l = "costs"
    · subst hl; norm_num [effVal, exBillLoad, names, Num.at]
    · simp [effVal, exBillLoad, names, hl, Ne.symm hl]

/-- The reserve at another price. -/
theorem exBill_reservePrice {q r r' : ℚ} {o o' : SysOut} (h : systemModel exSys (exBill q r) = .ok o) (h' : systemModel exSys (exBill q r') = .ok o') :
    Repriced exSys (exBill q r) "Reserve" "Q" [(some "costs", .s r')] (fun _ => r' - r) { label := "costs", isStandard := true, isObjective := true } o o' := by
  have e : (exBill q r).mapFlow "Reserve" "Q" (FlowData.priced [(some "costs", .s r')]) = exBill q r' := by
    unfold System.mapFlow exBill
    simp [Comp.label, Comp.mapFlows, FlowData.priced, exBillGen, exBillLoad]
  refine ⟨exSys_valid, by simp [exSys, Num.Nonneg], by decide, exBill_fits q r, by rw [e]; exact exBill_fits q r', exBill_proper q r, by rw [e]; exact exBill_proper q r', h, by rw [e]; exact h',
    by simp [exBill], exBill_plain q r, ⟨.plain { label := "Reserve", inputs := [], outputs := [exBillGen r] }, by simp [exBill], rfl, exBillGen r, by simp [Comp.flows, Comp.outputs], rfl⟩,
    by simp [exBill, Comp.label], exBill_flowLabels q r, ?_⟩
  intro k hk hl x hx _ l t _
  simp only [exBill, List.mem_cons, List.not_mem_nil, or_false] at hk
  rcases hk with rfl | rfl | rfl
  · simp [Comp.label] at hl
  · simp only [Comp.flows, Comp.inputs, Comp.outputs, List.nil_append, List.mem_singleton] at hx
    subst hx
    by_cases hl : l = "costs"
    · subst hl; norm_num [effVal, exBillGen, names, Num.at]
    · simp [effVal, exBillGen, names, hl, Ne.symm hl]
  · simp [Comp.label] at hl

/-- The hypotheses of `C125`, `C125_fixed` and `C125_kept` are met: the fixed load pays 4 instead of 1 per flow hour, and the least cost rises from 16 to 40. -/
example : ∃ o o' σ σ', systemModel exSys (exBill 1 9) = .ok o ∧ systemModel exSys (exBill 4 9) = .ok o' ∧ o.Optimal σ ∧ o'.Optimal σ' ∧ o.Costs σ 16 ∧ o'.Costs σ' 40 ∧
    (addedBill exSys "Load" "Q" (fun _ => 4 - 1) σ' ≤ 40 - 16 ∧ (40 : ℚ) - 16 ≤ addedBill exSys "Load" "Q" (fun _ => 4 - 1) σ) ∧
    (∃ τ, o'.Optimal τ ∧ (∀ l, l ∉ o'.coll.tree.labels → τ l = σ l) ∧ o'.Costs τ (16 + ∑ t ∈ Finset.range 3, (4 - 1) * (exSys.width t * 2))) := by
  obtain ⟨o, h, hs⟩ := builds_and_solves (σ := exBillSol 1) (r := systemModel exSys (exBill 1 9)) (f := fun o : SysOut => MTree.node o.solver.vars o.solver.cons []) (by decide +kernel)
  obtain ⟨o', h', hs'⟩ := builds_and_solves (σ := exBillSol 4) (r := systemModel exSys (exBill 4 9)) (f := fun o : SysOut => MTree.node o.solver.vars o.solver.cons []) (by decide +kernel)
  have no : ∀ q, ∀ t < exSys.n, exBillSol q "Reserve__Q_flow_rate" t = 0 := fun q t _ => by simp [exBillSol, tableSol, List.lookup]
  have p := exBill_optimal h (by norm_num) ⟨hs.1, hs.2.1⟩ (no 1)
  have p' := exBill_optimal h' (by norm_num) ⟨hs'.1, hs'.2.1⟩ (no 4)
  have b : o.Costs (exBillSol 1) 16 := by have := exBill_bill h ⟨hs.1, hs.2.1⟩ (no 1); norm_num at this; exact this
  have b' : o'.Costs (exBillSol 4) 40 := by have := exBill_bill h' ⟨hs'.1, hs'.2.1⟩ (no 4); norm_num at this; exact this
  have rep := exBill_loadPrice h h'
  exact ⟨o, o', _, _, h, h', p, p', b, b', C125 rep p p' b b', C125_fixed rep (v := fun _ => 2) (fun τ hτ => exBill_load h hτ) p b⟩

/-- The hypotheses of `C125_rise` and `C125_unused` are met: the reserve, dearer than the generator at 9, becomes still dearer. -/
example : ∃ o o' σ σ', systemModel exSys (exBill 1 9) = .ok o ∧ systemModel exSys (exBill 1 12) = .ok o' ∧ o.Optimal σ ∧ o'.Optimal σ' ∧ o.Costs σ 16 ∧ o'.Costs σ' 16 ∧ (16 : ℚ) ≤ 16 ∧
    ∃ τ, o'.Optimal τ ∧ (∀ l, l ∉ o'.coll.tree.labels → τ l = σ l) ∧ o'.Costs τ 16 := by
  obtain ⟨o, h, hs⟩ := builds_and_solves (σ := exBillSol 1) (r := systemModel exSys (exBill 1 9)) (f := fun o : SysOut => MTree.node o.solver.vars o.solver.cons []) (by decide +kernel)
  obtain ⟨o', h', hs'⟩ := builds_and_solves (σ := exBillSol 1) (r := systemModel exSys (exBill 1 12)) (f := fun o : SysOut => MTree.node o.solver.vars o.solver.cons []) (by decide +kernel)
  have no : ∀ t < exSys.n, exBillSol 1 "Reserve__Q_flow_rate" t = 0 := fun t _ => by simp [exBillSol, tableSol, List.lookup]
  have p := exBill_optimal h (by norm_num) ⟨hs.1, hs.2.1⟩ no
  have p' := exBill_optimal h' (by norm_num) ⟨hs'.1, hs'.2.1⟩ no
  have b : o.Costs (exBillSol 1) 16 := by have := exBill_bill h ⟨hs.1, hs.2.1⟩ no; norm_num at this; exact this
  have b' : o'.Costs (exBillSol 1) 16 := by have := exBill_bill h' ⟨hs'.1, hs'.2.1⟩ no; norm_num at this; exact this
  have rep := exBill_reservePrice h h'
  have big : 0 ≤ exSys.cfg.big := by norm_num [exSys, exCfg]
  have fw : ∀ k ∈ (exBill 1 9).comps, k.label = "Reserve" → ∀ x ∈ k.flows, x.label = "Q" → x.Fits exSys.n ∧ x.Forward exSys := by
    intro k hk hl x hx _
    simp only [exBill, List.mem_cons, List.not_mem_nil, or_false] at hk
    rcases hk with rfl | rfl | rfl
    · simp [Comp.label] at hl
    · simp only [Comp.flows, Comp.inputs, Comp.outputs, List.nil_append, List.mem_singleton] at hx
      subst hx
      exact ⟨(exBillGen_ok 9).1, exBill_forward 9⟩
    · simp [Comp.label] at hl
  exact ⟨o, o', _, _, h, h', p, p', b, b', C125_rise rep big fw (fun _ _ => by norm_num) p p' b b', C125_unused rep big fw (fun _ _ => by norm_num) p no b⟩

/-- The hypotheses of `C125_between` are met: the load pays 4, and for a comparison 1 and 7. -/
example : ∃ o o₁ o₂ σ σ₁ σ₂, systemModel exSys (exBill 4 9) = .ok o ∧ systemModel exSys (exBill 1 9) = .ok o₁ ∧ systemModel exSys (exBill 7 9) = .ok o₂ ∧ o.Optimal σ ∧ o₁.Optimal σ₁ ∧
    o₂.Optimal σ₂ ∧ o.Costs σ 40 ∧ o₁.Costs σ₁ 16 ∧ o₂.Costs σ₂ 64 ∧ (1 / 2 * 16 + 1 / 2 * 64 : ℚ) ≤ 40 := by
  obtain ⟨o, h, hs⟩ := builds_and_solves (σ := exBillSol 4) (r := systemModel exSys (exBill 4 9)) (f := fun o : SysOut => MTree.node o.solver.vars o.solver.cons []) (by decide +kernel)
  obtain ⟨o₁, h₁, hs₁⟩ := builds_and_solves (σ := exBillSol 1) (r := systemModel exSys (exBill 1 9)) (f := fun o : SysOut => MTree.node o.solver.vars o.solver.cons []) (by decide +kernel)
  obtain ⟨o₂, h₂, hs₂⟩ := builds_and_solves (σ := exBillSol 7) (r := systemModel exSys (exBill 7 9)) (f := fun o : SysOut => MTree.node o.solver.vars o.solver.cons []) (by decide +kernel)
  have no : ∀ q, ∀ t < exSys.n, exBillSol q "Reserve__Q_flow_rate" t = 0 := fun q t _ => by simp [exBillSol, tableSol, List.lookup]
  have p := exBill_optimal h (by norm_num) ⟨hs.1, hs.2.1⟩ (no 4)
  have p₁ := exBill_optimal h₁ (by norm_num) ⟨hs₁.1, hs₁.2.1⟩ (no 1)
  have p₂ := exBill_optimal h₂ (by norm_num) ⟨hs₂.1, hs₂.2.1⟩ (no 7)
  have b : o.Costs (exBillSol 4) 40 := by have := exBill_bill h ⟨hs.1, hs.2.1⟩ (no 4); norm_num at this; exact this
  have b₁ : o₁.Costs (exBillSol 1) 16 := by have := exBill_bill h₁ ⟨hs₁.1, hs₁.2.1⟩ (no 1); norm_num at this; exact this
  have b₂ : o₂.Costs (exBillSol 7) 64 := by have := exBill_bill h₂ ⟨hs₂.1, hs₂.2.1⟩ (no 7); norm_num at this; exact this
  exact ⟨o, o₁, o₂, _, _, _, h, h₁, h₂, p, p₁, p₂, b, b₁, b₂,
    C125_between (exBill_loadPrice h h₁) (exBill_loadPrice h h₂) (by norm_num) (by norm_num) (by norm_num) (fun _ _ => by norm_num) p p₁ p₂ b b₁ b₂⟩

end Flix
