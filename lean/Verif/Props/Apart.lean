import Verif.Props.Idle
import Verif.Props.Cheapest

/-!
# Systems without a common bus

C96: two systems that share nothing but their effects can be calculated together or one after the other.
-/

namespace Flix

variable {sys : Sys} {s₁ s₂ : System} {o₁ o₂ o : SysOut}

/-- Both systems as one.  The effects are those of the first. -/
def System.union (s₁ s₂ : System) : System := { effects := s₁.effects, comps := s₁.comps ++ s₂.comps, buses := s₁.buses ++ s₂.buses }

/-- No flow of a component of the first system is connected to a bus of the second. -/
def System.Avoids (s₁ s₂ : System) : Prop := ∀ c ∈ s₁.comps, ∀ f ∈ c.inputs ++ c.outputs, ∀ b ∈ s₂.buses, f.bus ≠ b.label

theorem forall₂_det {α β : Type} {R : α → β → Prop} (det : ∀ a b c, R a b → R a c → b = c) {l : List α} {r r' : List β} (h : List.Forall₂ R l r)
    (h' : List.Forall₂ R l r') : r = r' := by
  induction h generalizing r' with
  | nil => cases h'; rfl
  | cons a _ ih =>
    cases h' with
    | cons a' b' => rw [det _ _ _ a a', ih b']

theorem forall₂_append' {α β : Type} {R : α → β → Prop} {l l' : List α} {r r' : List β} (h : List.Forall₂ R l r) (h' : List.Forall₂ R l' r') :
    List.Forall₂ R (l ++ l') (r ++ r') := by
  induction h with
  | nil => exact h'
  | cons a _ ih => exact .cons a ih

theorem union_comps (h₁ : systemModel sys s₁ = .ok o₁) (h₂ : systemModel sys s₂ = .ok o₂) (h : systemModel sys (s₁.union s₂) = .ok o) :
    o.comps = o₁.comps ++ o₂.comps :=
  forall₂_det (fun a b c hb hc => by rw [hb] at hc; exact Except.ok.inj hc) (system_inv h).1 (forall₂_append' (system_inv h₁).1 (system_inv h₂).1)

/-- Flows connected elsewhere do not appear at a bus. -/
theorem busFlows_none {n : Nat} {bus : String} {cs : List Comp} {os : List CompOut} (fl : Comp → List FlowData) (ofl : CompOut → List (FlowData × FlowOut))
    (h : List.Forall₂ (fun c o => List.Forall₂ (FlowOf n c.label) (fl c) (ofl o)) cs os) (hb : ∀ c ∈ cs, ∀ f ∈ fl c, f.bus ≠ bus) :
    busFlows (os.map ofl).flatten bus = [] := by
  unfold busFlows
  rw [List.filterMap_eq_nil_iff]
  intro q hq
  obtain ⟨qs, hqs, hq⟩ := List.mem_flatten.1 hq
  obtain ⟨oc, hoc, rfl⟩ := List.mem_map.1 hqs
  obtain ⟨c, hc, hf⟩ := forall₂_mem_right h hoc
  obtain ⟨f, hfm, e⟩ := forall₂_mem_right hf hq
  rw [if_neg]
  rw [e.1]
  exact hb c hc f hfm

theorem union_buses (a₁ : s₁.Avoids s₂) (a₂ : s₂.Avoids s₁) (h₁ : systemModel sys s₁ = .ok o₁) (h₂ : systemModel sys s₂ = .ok o₂)
    (h : systemModel sys (s₁.union s₂) = .ok o) : o.buses = o₁.buses ++ o₂.buses := by
  obtain ⟨c1, b1, _⟩ := system_inv h₁
  obtain ⟨c2, b2, _⟩ := system_inv h₂
  obtain ⟨_, b3, _⟩ := system_inv h
  rw [union_comps h₁ h₂ h] at b3
  simp only [List.map_append, List.flatten_append, busFlows_append] at b3
  refine forall₂_det (fun a b c hb hc => by rw [hb] at hc; exact Except.ok.inj hc) b3 (forall₂_append' ?_ ?_)
  · refine forall₂_imp' b1 fun b hb ob hm => ?_
    rw [busFlows_none Comp.outputs (·.outputs) (forall₂_imp' c2 fun c _ oc h => (model_flowOf h).2) fun c hc f hf => a₂ c hc f (List.mem_append_right _ hf) b hb,
      busFlows_none Comp.inputs (·.inputs) (forall₂_imp' c2 fun c _ oc h => (model_flowOf h).1) fun c hc f hf => a₂ c hc f (List.mem_append_left _ hf) b hb,
      List.append_nil, List.append_nil]
    exact hm
  · refine forall₂_imp' b2 fun b hb ob hm => ?_
    rw [busFlows_none Comp.outputs (·.outputs) (forall₂_imp' c1 fun c _ oc h => (model_flowOf h).2) fun c hc f hf => a₁ c hc f (List.mem_append_right _ hf) b hb,
      busFlows_none Comp.inputs (·.inputs) (forall₂_imp' c1 fun c _ oc h => (model_flowOf h).1) fun c hc f hf => a₁ c hc f (List.mem_append_left _ hf) b hb,
      List.nil_append, List.nil_append]
    exact hm

theorem flows_none (σ : Assignment) {s : System} {b : String} (h : ∀ c ∈ s.comps, ∀ f ∈ c.inputs ++ c.outputs, f.bus ≠ b) (t : Nat) :
    fedInto σ s b t = 0 ∧ takenFrom σ s b t = 0 := by
  constructor
  · unfold fedInto
    refine List.sum_eq_zero fun x hx => ?_
    obtain ⟨c, hc, rfl⟩ := List.mem_map.1 hx
    rw [List.filter_eq_nil_iff.2 fun f hf => by simpa using h c hc f (List.mem_append_right _ hf)]
    rfl
  · unfold takenFrom
    refine List.sum_eq_zero fun x hx => ?_
    obtain ⟨c, hc, rfl⟩ := List.mem_map.1 hx
    rw [List.filter_eq_nil_iff.2 fun f hf => by simpa using h c hc f (List.mem_append_left _ hf)]
    rfl

theorem union_flows (σ : Assignment) (b : String) (t : Nat) :
    fedInto σ (s₁.union s₂) b t = fedInto σ s₁ b t + fedInto σ s₂ b t ∧ takenFrom σ (s₁.union s₂) b t = takenFrom σ s₁ b t + takenFrom σ s₂ b t := by
  unfold fedInto takenFrom System.union
  simp only [List.map_append, List.sum_append, and_self]

/-- The balances of the union are those of the parts. -/
theorem union_busOk (a₁ : s₁.Avoids s₂) (a₂ : s₂.Avoids s₁) (σ : Assignment) :
    (∀ b ∈ s₁.buses, (s₁.union s₂).BusOk sys σ b ↔ s₁.BusOk sys σ b) ∧ ∀ b ∈ s₂.buses, (s₁.union s₂).BusOk sys σ b ↔ s₂.BusOk sys σ b := by
  constructor
  · intro b hb
    have z := fun t => flows_none σ (s := s₂) (b := b.label) (fun c hc f hf => a₂ c hc f hf b hb) t
    unfold System.BusOk
    simp only [(union_flows σ b.label _).1, (union_flows σ b.label _).2, (z _).1, (z _).2, add_zero]
  · intro b hb
    have z := fun t => flows_none σ (s := s₁) (b := b.label) (fun c hc f hf => a₁ c hc f hf b hb) t
    unfold System.BusOk
    simp only [(union_flows σ b.label _).1, (union_flows σ b.label _).2, (z _).1, (z _).2, zero_add]

theorem union_contrib (he : s₂.effects = s₁.effects) (σ : Assignment) (l : String) :
    (∀ t, (s₁.union s₂).opOf sys σ l t = s₁.opOf sys σ l t + s₂.opOf sys σ l t) ∧ (s₁.union s₂).invOf σ l = s₁.invOf σ l + s₂.invOf σ l := by
  unfold System.opOf System.invOf System.union
  simp only [List.map_append, List.sum_append, he, implies_true, and_self]

/-- Totals of two systems. -/
def Totals.add (T U : Totals) : Totals := ⟨fun l t => T.op l t + U.op l t, fun l => T.inv l + U.inv l⟩

theorem shares_add (es : List EffectData) (shares : EffectData → List (String × Num)) (l : String) (f : Num → ℚ) (x y : String → ℚ) :
    (es.map fun o => (((shares o).filter fun q => q.1 = l).map fun q => f q.2 * (x o.label + y o.label)).sum).sum =
      (es.map fun o => (((shares o).filter fun q => q.1 = l).map fun q => f q.2 * x o.label).sum).sum +
      (es.map fun o => (((shares o).filter fun q => q.1 = l).map fun q => f q.2 * y o.label).sum).sum := by
  rw [← List.sum_map_add]
  refine congrArg List.sum (List.map_congr_left fun o _ => ?_)
  rw [← List.sum_map_add]
  exact congrArg List.sum (List.map_congr_left fun q _ => mul_add _ _ _)

theorem Totals.Balanced.add {T U : Totals} {es : List EffectData} {n : Nat} {a b : String → Nat → ℚ} {c d : String → ℚ} (hT : T.Balanced es n a c) (hU : U.Balanced es n b d) :
    (T.add U).Balanced es n (fun l t => a l t + b l t) (fun l => c l + d l) := by
  intro e he
  refine ⟨fun t ht => ?_, ?_⟩
  · simp only [Totals.add]
    rw [shares_add es (·.shareOperation) e.label (fun f => f.at t) (fun l => T.op l t) (fun l => U.op l t), (hT e he).1 t ht, (hU e he).1 t ht]
    ring
  · simp only [Totals.add]
    rw [shares_add es (·.shareInvest) e.label (fun f => f.at 0) T.inv U.inv, (hT e he).2, (hU e he).2]
    ring

theorem Totals.Balanced.congr {T : Totals} {es : List EffectData} {n : Nat} {a b : String → Nat → ℚ} {c d : String → ℚ} (hT : T.Balanced es n a c)
    (h1 : ∀ l, ∀ t < n, a l t = b l t) (h2 : ∀ l, c l = d l) : T.Balanced es n b d := by
  intro e he
  refine ⟨fun t ht => ?_, ?_⟩
  · rw [← h1 _ t ht]; exact (hT e he).1 t ht
  · rw [← h2]; exact (hT e he).2

theorem unlimited_allowed {s : System} (hu : s.Unlimited) (T : Totals) : ∀ e ∈ s.effects, T.Allowed sys e := by
  intro e he
  obtain ⟨u1, u2, u3, u4, u5, u6, u7, u8⟩ := hu e he
  constructor <;> simp_all

/-- Without cycles the totals are determined. -/
theorem balanced_unique {T U : Totals} {es : List EffectData} {n : Nat} {a : String → Nat → ℚ} {c : String → ℚ} {rank : String → Nat}
    (hr1 : Ranked es (·.shareOperation) rank) (hr2 : Ranked es (·.shareInvest) rank) (hT : T.Balanced es n a c) (hU : U.Balanced es n a c) :
    ∀ e ∈ es, (∀ t < n, T.op e.label t = U.op e.label t) ∧ T.inv e.label = U.inv e.label := by
  intro e he
  refine ⟨fun t ht => ?_, ?_⟩
  · exact ranked_unique hr1 (fun f => f.at t) (d := fun l => a l t) (x := fun l => T.op l t) (y := fun l => U.op l t) (fun e he => (hT e he).1 t ht) (fun e he => (hU e he).1 t ht) e he
  · exact ranked_unique hr2 (fun f => f.at 0) (d := c) (x := T.inv) (y := U.inv) (fun e he => (hT e he).2) (fun e he => (hU e he).2) e he

theorem balanced_exists {es : List EffectData} (n : Nat) (a : String → Nat → ℚ) (c : String → ℚ) {rank : String → Nat}
    (hr1 : Ranked es (·.shareOperation) rank) (hr2 : Ranked es (·.shareInvest) rank) : ∃ T : Totals, T.Balanced es n a c := by
  choose x hx using fun t => ranked_exists hr1 (fun f => f.at t) (fun l => a l t)
  obtain ⟨y, hy⟩ := ranked_exists hr2 (fun f => f.at 0) c
  exact ⟨⟨fun l t => x t l, y⟩, fun e he => ⟨fun t _ => hx t e he, hy e he⟩⟩

/-- The penalties depend on the excesses only. -/
theorem penalties_agree (hv : sys.Valid) {s : System} (hf : s.Fits sys.n) (h : systemModel sys s = .ok o) {σ τ : Assignment} (hst : ∀ x, o.Physical x → σ x.label = τ x.label) :
    (s.buses.map fun b => b.penaltyCost sys σ).sum = (s.buses.map fun b => b.penaltyCost sys τ).sum := by
  refine congrArg List.sum (List.map_congr_left fun b hb => ?_)
  obtain ⟨h1, h2, _, _⟩ := system_inv h
  obtain ⟨ob, hob, hm⟩ := forall₂_mem_left h2 hb
  unfold BusData.penaltyCost
  cases hp : b.excessPenalty with
  | none => rfl
  | some pen =>
    obtain ⟨ein, eout, f, x1, x2, l1, l2, _⟩ := bus_some hv hm hp (hf.buses b hb pen hp)
      (busFlows_all (σ := fun _ _ => 0) (n := sys.n) (t := 0) Comp.outputs (·.outputs) (forall₂_imp' h1 fun c _ oc h => (model_flowOf h).2) (bus := b.label)).2
      (busFlows_all (σ := fun _ _ => 0) (n := sys.n) (t := 0) Comp.inputs (·.inputs) (forall₂_imp' h1 fun c _ oc h => (model_flowOf h).1) (bus := b.label)).2
    have hl := bus_labels hm x1 x2
    have key : ∀ l ∈ ob.tree.labels, σ l = τ l := by
      intro l hlm
      obtain ⟨x, hx, rfl⟩ := List.mem_map.1 hlm
      obtain ⟨m, hmm, hx⟩ := List.mem_flatMap.1 hx
      exact hst x (Or.inr ⟨ob, hob, m, (within_nodes m _).1 hmm, hx⟩)
    have e1 := key ein.label (by rw [hl]; simp)
    have e2 := key eout.label (by rw [hl]; simp)
    rw [l1] at e1
    rw [l2] at e2
    simp only [excessInL, excessOutL] at e1 e2
    simp only [e1, e2]

/-- A part of the union: its variables are variables of the union. -/
theorem union_physical (a₁ : s₁.Avoids s₂) (a₂ : s₂.Avoids s₁) (h₁ : systemModel sys s₁ = .ok o₁) (h₂ : systemModel sys s₂ = .ok o₂)
    (h : systemModel sys (s₁.union s₂) = .ok o) (x : Var) : o.Physical x ↔ o₁.Physical x ∨ o₂.Physical x := by
  unfold SysOut.Physical
  rw [union_comps h₁ h₂ h, union_buses a₁ a₂ h₁ h₂ h]
  simp only [List.mem_append, or_and_right, exists_or]
  exact or_or_or_comm

/-- The two parts have no variable in common. -/
theorem union_disjoint (a₁ : s₁.Avoids s₂) (a₂ : s₂.Avoids s₁) (h₁ : systemModel sys s₁ = .ok o₁) (h₂ : systemModel sys s₂ = .ok o₂)
    (h : systemModel sys (s₁.union s₂) = .ok o) {x y : Var} (hx : o₁.Physical x) (hy : o₂.Physical y) : x.label ≠ y.label := by
  have hl := (List.nodup_append.1 (system_labels h)).2.1
  rw [union_comps h₁ h₂ h, union_buses a₁ a₂ h₁ h₂ h] at hl
  simp only [List.map_append, List.flatMap_append] at hl
  obtain ⟨l1, l2, l3⟩ := List.nodup_append.1 hl
  have m : ∀ {ts : List MTree} {t : MTree} {x : Var}, t ∈ ts → t.HasVar x → x.label ∈ ts.flatMap MTree.labels :=
    fun ht hx => List.mem_flatMap.2 ⟨_, ht, hasVar_labels hx⟩
  rcases hx with ⟨c, hc, hx⟩ | ⟨c, hc, hx⟩ <;> rcases hy with ⟨d, hd, hy⟩ | ⟨d, hd, hy⟩
  · exact (List.nodup_append.1 l1).2.2 _ (m (List.mem_map_of_mem hc) hx) _ (m (List.mem_map_of_mem hd) hy)
  · exact l3 _ (List.mem_append_left _ (m (List.mem_map_of_mem hc) hx)) _ (List.mem_append_right _ (m (List.mem_map_of_mem hd) hy))
  · exact fun e => l3 _ (List.mem_append_right _ (m (List.mem_map_of_mem hd) hy)) _ (List.mem_append_left _ (m (List.mem_map_of_mem hc) hx)) e.symm
  · exact (List.nodup_append.1 l2).2.2 _ (m (List.mem_map_of_mem hc) hx) _ (m (List.mem_map_of_mem hd) hy)

/-- Everything but the effects carries over between assignments that agree. -/
theorem physical_congr (hv : sys.Valid) {s : System} (hf : s.Fits sys.n) (h : systemModel sys s = .ok o) {σ τ : Assignment} (hst : ∀ x, o.Physical x → σ x.label = τ x.label)
    (hs : o.solver.Solves σ) : (∀ c ∈ o.comps, c.tree.Solves τ) ∧ (∀ b ∈ s.buses, s.BusOk sys τ b) ∧
      ∀ l, (∀ t < sys.n, s.opOf sys σ l t = s.opOf sys τ l t) ∧ s.invOf σ l = s.invOf τ l := by
  obtain ⟨r1, r2, _⟩ := physical_refs h
  obtain ⟨_, s2, s3⟩ := (system_solves h σ).1 hs
  exact ⟨fun c hc => solves_congr (r1 c hc).1 (r1 c hc).2 hst (s2 c hc),
    (buses_iff hv hf h τ).1 fun b hb => solves_congr (r2 b hb).1 (r2 b hb).2 hst (s3 b hb),
    contribs_congr hv hf h fun oc hoc x hx => hst x (Or.inl ⟨oc, hoc, hx⟩)⟩

theorem union_fits (hf₁ : s₁.Fits sys.n) (hf₂ : s₂.Fits sys.n) : (s₁.union s₂).Fits sys.n := by
  refine ⟨hf₁.effects, fun c hc => ?_, fun b hb => ?_⟩
  · exact (List.mem_append.1 hc).elim (hf₁.comps c) (hf₂.comps c)
  · exact (List.mem_append.1 hb).elim (hf₁.buses b) (hf₂.buses b)

/-- **C96 (together).**  A solution of each of two systems without a common bus gives a solution of both as one system; effects and costs add up. -/
theorem C96_join (hv : sys.Valid) (hn : sys.n ≠ 0) (hf₁ : s₁.Fits sys.n) (hf₂ : s₂.Fits sys.n) (a₁ : s₁.Avoids s₂) (a₂ : s₂.Avoids s₁) (he : s₂.effects = s₁.effects)
    (hu : s₁.Unlimited) (h₁ : systemModel sys s₁ = .ok o₁) (h₂ : systemModel sys s₂ = .ok o₂) (h : systemModel sys (s₁.union s₂) = .ok o) {σ₁ σ₂ : Assignment}
    (hs₁ : o₁.solver.Solves σ₁) (hs₂ : o₂.solver.Solves σ₂) :
    ∃ σ, o.solver.Solves σ ∧ (∀ x, o₁.Physical x → σ x.label = σ₁ x.label) ∧ (∀ x, o₂.Physical x → σ x.label = σ₂ x.label) ∧
      ∀ e ∈ s₁.effects, (s₁.union s₂).cost sys e σ = s₁.cost sys e σ₁ + s₂.cost sys e σ₂ := by
  classical
  let τ : Assignment := fun l => if ∃ x, o₁.Physical x ∧ x.label = l then σ₁ l else σ₂ l
  have t1 : ∀ x, o₁.Physical x → σ₁ x.label = τ x.label := fun x hx => (if_pos ⟨x, hx, rfl⟩).symm
  have t2 : ∀ x, o₂.Physical x → σ₂ x.label = τ x.label := fun x hx => (if_neg (by
    rintro ⟨y, hy, e⟩
    exact union_disjoint a₁ a₂ h₁ h₂ h hy hx e)).symm
  obtain ⟨c1, b1, k1⟩ := physical_congr hv hf₁ h₁ t1 hs₁
  obtain ⟨c2, b2, k2⟩ := physical_congr hv hf₂ h₂ t2 hs₂
  have hf := union_fits (sys := sys) hf₁ hf₂
  have T1 := (solution_totals hv hn hf₁ h₁ hs₁).1
  have T2 := (solution_totals hv hn hf₂ h₂ hs₂).1
  rw [he] at T2
  have uc := union_contrib (sys := sys) he τ
  have T := (T1.add T2).congr (b := (s₁.union s₂).opOf sys τ) (d := (s₁.union s₂).invOf τ)
    (fun l t ht => by rw [(uc l).1 t, (k1 l).1 t ht, (k2 l).1 t ht]) (fun l => by rw [(uc l).2, (k1 l).2, (k2 l).2])
  obtain ⟨σ, g1, g2, g3⟩ := solution_complete hv hn hf h (σ := τ) (by
      rw [union_comps h₁ h₂ h]
      exact fun c hc => (List.mem_append.1 hc).elim (c1 c) (c2 c)) (by
      intro b hb
      rcases List.mem_append.1 hb with hb | hb
      · exact ((union_busOk a₁ a₂ τ).1 b hb).2 (b1 b hb)
      · exact ((union_busOk a₁ a₂ τ).2 b hb).2 (b2 b hb)) T (unlimited_allowed (s := s₁) hu _)
  have p := union_physical a₁ a₂ h₁ h₂ h
  have e1 : ∀ x, o₁.Physical x → σ x.label = σ₁ x.label := fun x hx => by rw [g2 _ (physical_label h ((p x).2 (.inl hx))), t1 x hx]
  have e2 : ∀ x, o₂.Physical x → σ x.label = σ₂ x.label := fun x hx => by rw [g2 _ (physical_label h ((p x).2 (.inr hx))), t2 x hx]
  refine ⟨σ, g1, e1, e2, fun e hem => ?_⟩
  obtain ⟨q1, q2⟩ := g3 e hem
  have pen : ((s₁.union s₂).buses.map fun b => b.penaltyCost sys σ).sum = (s₁.buses.map fun b => b.penaltyCost sys σ₁).sum + (s₂.buses.map fun b => b.penaltyCost sys σ₂).sum := by
    rw [← penalties_agree hv hf₁ h₁ e1, ← penalties_agree hv hf₂ h₂ e2]
    simp only [System.union, List.map_append, List.sum_append]
  unfold System.cost
  simp only [opTSL, invSumL, Totals.add] at q1 q2
  rw [pen, q1, q2, Finset.sum_add_distrib]
  ring

/-- **C96 (apart).**  A solution of both as one system consists of a solution of each; effects and costs are the sums. -/
theorem C96_split (hv : sys.Valid) (hn : sys.n ≠ 0) (hf₁ : s₁.Fits sys.n) (hf₂ : s₂.Fits sys.n) (a₁ : s₁.Avoids s₂) (a₂ : s₂.Avoids s₁) (he : s₂.effects = s₁.effects)
    (hu : s₁.Unlimited) {rank : String → Nat} (hr1 : Ranked s₁.effects (·.shareOperation) rank) (hr2 : Ranked s₁.effects (·.shareInvest) rank)
    (h₁ : systemModel sys s₁ = .ok o₁) (h₂ : systemModel sys s₂ = .ok o₂) (h : systemModel sys (s₁.union s₂) = .ok o) {σ : Assignment} (hs : o.solver.Solves σ) :
    ∃ σ₁ σ₂, o₁.solver.Solves σ₁ ∧ o₂.solver.Solves σ₂ ∧ (∀ x, o₁.Physical x → σ₁ x.label = σ x.label) ∧ (∀ x, o₂.Physical x → σ₂ x.label = σ x.label) ∧
      ∀ e ∈ s₁.effects, (s₁.union s₂).cost sys e σ = s₁.cost sys e σ₁ + s₂.cost sys e σ₂ := by
  have hf := union_fits (sys := sys) hf₁ hf₂
  obtain ⟨c, b, _⟩ := physical_congr hv hf h (fun _ _ => rfl) hs
  rw [union_comps h₁ h₂ h] at c
  obtain ⟨U1, hU1⟩ := balanced_exists sys.n (s₁.opOf sys σ) (s₁.invOf σ) hr1 hr2
  obtain ⟨U2, hU2⟩ := balanced_exists sys.n (s₂.opOf sys σ) (s₂.invOf σ) hr1 hr2
  obtain ⟨σ₁, x1, x2, x3⟩ := solution_complete hv hn hf₁ h₁ (σ := σ) (fun d hd => c d (List.mem_append_left _ hd))
    (fun d hd => ((union_busOk a₁ a₂ σ).1 d hd).1 (b d (List.mem_append_left _ hd))) hU1 (unlimited_allowed hu _)
  obtain ⟨σ₂, y1, y2, y3⟩ := solution_complete hv hn hf₂ h₂ (σ := σ) (fun d hd => c d (List.mem_append_right _ hd))
    (fun d hd => ((union_busOk a₁ a₂ σ).2 d hd).1 (b d (List.mem_append_right _ hd))) (he ▸ hU2) (by rw [he]; exact unlimited_allowed hu _)
  have e1 : ∀ x, o₁.Physical x → σ₁ x.label = σ x.label := fun x hx => x2 _ (physical_label h₁ hx)
  have e2 : ∀ x, o₂.Physical x → σ₂ x.label = σ x.label := fun x hx => y2 _ (physical_label h₂ hx)
  refine ⟨σ₁, σ₂, x1, y1, e1, e2, fun e hem => ?_⟩
  have uc := union_contrib (sys := sys) he σ
  have T := (hU1.add hU2).congr (b := (s₁.union s₂).opOf sys σ) (d := (s₁.union s₂).invOf σ) (fun l t _ => ((uc l).1 t).symm) (fun l => (uc l).2.symm)
  obtain ⟨v1, v2⟩ := balanced_unique hr1 hr2 (solution_totals hv hn hf h hs).1 T e hem
  obtain ⟨q1, q2⟩ := x3 e hem
  obtain ⟨r1, r2⟩ := y3 e (by rw [he]; exact hem)
  have pen : ((s₁.union s₂).buses.map fun b => b.penaltyCost sys σ).sum = (s₁.buses.map fun b => b.penaltyCost sys σ₁).sum + (s₂.buses.map fun b => b.penaltyCost sys σ₂).sum := by
    rw [penalties_agree hv hf₁ h₁ e1, penalties_agree hv hf₂ h₂ e2]
    simp only [System.union, List.map_append, List.sum_append]
  unfold System.cost
  simp only [opTSL, invSumL, Totals.add] at q1 q2 r1 r2 v1 v2
  rw [pen, q1, q2, r1, r2, v2, Finset.sum_congr rfl fun t ht => v1 t (Finset.mem_range.1 ht), Finset.sum_add_distrib]
  ring

/-- **C96.**  Systems without a common bus can be optimized one after the other: the optimal costs add up, and cheapest solutions of both put together are a cheapest
solution of the whole. -/
theorem C96 (hv : sys.Valid) (hn : sys.n ≠ 0) (hf₁ : s₁.Fits sys.n) (hf₂ : s₂.Fits sys.n) (a₁ : s₁.Avoids s₂) (a₂ : s₂.Avoids s₁) (he : s₂.effects = s₁.effects)
    (hu : s₁.Unlimited) {rank : String → Nat} (hr1 : Ranked s₁.effects (·.shareOperation) rank) (hr2 : Ranked s₁.effects (·.shareInvest) rank)
    (h₁ : systemModel sys s₁ = .ok o₁) (h₂ : systemModel sys s₂ = .ok o₂) (h : systemModel sys (s₁.union s₂) = .ok o) :
    ∃ terms₁ terms₂ terms, objectiveTerms o₁.solver.objective = .ok terms₁ ∧ objectiveTerms o₂.solver.objective = .ok terms₂ ∧ objectiveTerms o.solver.objective = .ok terms ∧
      (∀ σ₁ σ₂, o₁.Optimal σ₁ → o₂.Optimal σ₂ → ∃ σ, o.Optimal σ ∧ (∀ x, o₁.Physical x → σ x.label = σ₁ x.label) ∧ (∀ x, o₂.Physical x → σ x.label = σ₂ x.label) ∧
        termsVal σ terms = termsVal σ₁ terms₁ + termsVal σ₂ terms₂) ∧
      ∀ σ, o.Optimal σ → ∃ σ₁ σ₂, o₁.Optimal σ₁ ∧ o₂.Optimal σ₂ ∧ (∀ x, o₁.Physical x → σ₁ x.label = σ x.label) ∧ (∀ x, o₂.Physical x → σ₂ x.label = σ x.label) ∧
        termsVal σ terms = termsVal σ₁ terms₁ + termsVal σ₂ terms₂ := by
  have hf := union_fits (sys := sys) hf₁ hf₂
  obtain ⟨terms₁, e₁, u1, v1, w1⟩ := solution_cost hv hn hf₁ h₁
  obtain ⟨terms₂, e₂, u2, v2, w2⟩ := solution_cost hv hn hf₂ h₂
  obtain ⟨terms, e, u, v, w⟩ := solution_cost hv hn hf h
  rw [he, v1] at v2
  rw [show (s₁.union s₂).effects = s₁.effects from rfl, v1] at v
  cases v2
  cases v
  have hem := List.mem_of_find?_eq_some v1
  refine ⟨terms₁, terms₂, terms, u1, u2, u, fun σ₁ σ₂ m₁ m₂ => ?_, fun σ m => ?_⟩
  · obtain ⟨n₁, t₁, p₁, q₁⟩ := m₁
    obtain ⟨n₂, t₂, p₂, q₂⟩ := m₂
    rw [u1] at p₁
    rw [u2] at p₂
    cases p₁
    cases p₂
    obtain ⟨σ, g1, g2, g3, g4⟩ := C96_join hv hn hf₁ hf₂ a₁ a₂ he hu h₁ h₂ h n₁ n₂
    have hval : termsVal σ terms = termsVal σ₁ terms₁ + termsVal σ₂ terms₂ := by rw [w σ g1, g4 _ hem, w1 σ₁ n₁, w2 σ₂ n₂]
    refine ⟨σ, ⟨g1, terms, u, fun τ hτ => ?_⟩, g2, g3, hval⟩
    obtain ⟨τ₁, τ₂, y1, y2, _, _, y5⟩ := C96_split hv hn hf₁ hf₂ a₁ a₂ he hu hr1 hr2 h₁ h₂ h hτ
    rw [hval, w τ hτ, y5 _ hem, ← w1 τ₁ y1, ← w2 τ₂ y2]
    exact add_le_add (q₁ τ₁ y1) (q₂ τ₂ y2)
  · obtain ⟨n, t, p, q⟩ := m
    rw [u] at p
    cases p
    obtain ⟨σ₁, σ₂, y1, y2, y3, y4, y5⟩ := C96_split hv hn hf₁ hf₂ a₁ a₂ he hu hr1 hr2 h₁ h₂ h n
    have hval : termsVal σ terms = termsVal σ₁ terms₁ + termsVal σ₂ terms₂ := by rw [w σ n, y5 _ hem, w1 σ₁ y1, w2 σ₂ y2]
    refine ⟨σ₁, σ₂, ⟨y1, terms₁, u1, fun τ hτ => ?_⟩, ⟨y2, terms₂, u2, fun τ hτ => ?_⟩, y3, y4, hval⟩
    · obtain ⟨τ', g1, _, _, g4⟩ := C96_join hv hn hf₁ hf₂ a₁ a₂ he hu h₁ h₂ h hτ y2
      have := q τ' g1
      rw [hval, w τ' g1, g4 _ hem, ← w1 τ hτ, ← w2 σ₂ y2] at this
      linarith
    · obtain ⟨τ', g1, _, _, g4⟩ := C96_join hv hn hf₁ hf₂ a₁ a₂ he hu h₁ h₂ h y1 hτ
      have := q τ' g1
      rw [hval, w τ' g1, g4 _ hem, ← w1 σ₁ y1, ← w2 τ hτ] at this
      linarith

/-! ## An example -/

/-- A plant with states at a bus of its own. -/
def exPower : System :=
  { effects := [{ label := "costs", isStandard := true, isObjective := true }]
    comps := [.plain { label := "Gen", inputs := [], outputs := [{ label := "P", bus := "power", size := .num 3, effectsPerFlowHour := [("costs", .s (-1))], onOff := some {} }] }]
    buses := [{ label := "power", excessPenalty := some (.s 2) }] }

theorem exMix_flows : exMix.Fits exSys.n ∧ ∀ c ∈ exMix.comps, ∀ f ∈ c.flows, f.Fits exSys.n := by
  refine ⟨⟨?_, ?_, ?_⟩, ?_⟩
  · simp only [exMix, List.forall_mem_cons, List.not_mem_nil, false_imp_iff, implies_true, and_true]
    constructor <;> simp
  · simp only [exMix, List.forall_mem_cons, List.not_mem_nil, false_imp_iff, implies_true, and_true]
    refine ⟨?_, by simp [Comp.onOff], by simp⟩
    simp only [Comp.flows, Comp.inputs, Comp.outputs, List.nil_append, List.forall_mem_cons, List.not_mem_nil, false_imp_iff, implies_true, and_true]
    refine ⟨by simp [EffDict.Series, Num.isScalar], fun q hq => ?_, by simp⟩
    simp only [Option.some.injEq] at hq
    subst hq
    exact empty_effFits _
  · simp only [exMix, List.forall_mem_cons, List.not_mem_nil, false_imp_iff, implies_true, and_true]
    intro pen hp
    cases hp
    exact Or.inl rfl
  · simp only [exMix, List.forall_mem_cons, List.not_mem_nil, false_imp_iff, implies_true, and_true, Comp.flows, Comp.inputs, Comp.outputs, List.nil_append]
    constructor <;> simp [Num.Fits, Num.isScalar, exSys]
    constructor <;> simp

theorem exPower_flows : exPower.Fits exSys.n ∧ ∀ c ∈ exPower.comps, ∀ f ∈ c.flows, f.Fits exSys.n := by
  refine ⟨⟨?_, ?_, ?_⟩, ?_⟩
  · simp only [exPower, List.forall_mem_cons, List.not_mem_nil, false_imp_iff, implies_true, and_true]
    constructor <;> simp
  · simp only [exPower, List.forall_mem_cons, List.not_mem_nil, false_imp_iff, implies_true, and_true]
    refine ⟨?_, by simp [Comp.onOff], by simp⟩
    simp only [Comp.flows, Comp.inputs, Comp.outputs, List.nil_append, List.forall_mem_cons, List.not_mem_nil, false_imp_iff, implies_true, and_true]
    refine ⟨by simp [EffDict.Series, Num.isScalar], fun q hq => ?_, by simp⟩
    simp only [Option.some.injEq] at hq
    subst hq
    exact empty_effFits _
  · simp only [exPower, List.forall_mem_cons, List.not_mem_nil, false_imp_iff, implies_true, and_true]
    intro pen hp
    cases hp
    exact Or.inl rfl
  · simp only [exPower, List.forall_mem_cons, List.not_mem_nil, false_imp_iff, implies_true, and_true, Comp.flows, Comp.inputs, Comp.outputs, List.nil_append]
    constructor <;> simp [Num.Fits, Num.isScalar, exSys]
    constructor <;> simp

theorem exPair_ranked : Ranked exMix.effects (·.shareOperation) (fun _ => 0) ∧ Ranked exMix.effects (·.shareInvest) (fun _ => 0) := by
  constructor <;> (intro e he q hq; simp only [exMix, List.mem_cons, List.not_mem_nil, or_false] at he; subst he; simp at hq)

/-- The hypotheses of `C96` are met: both systems have cheapest solutions, and so has the union, at the sum of the costs. -/
example : ∃ o₁ o₂ o σ₁ σ₂ σ, systemModel exSys exMix = .ok o₁ ∧ systemModel exSys exPower = .ok o₂ ∧ systemModel exSys (exMix.union exPower) = .ok o ∧
    o₁.Optimal σ₁ ∧ o₂.Optimal σ₂ ∧ o.Optimal σ ∧ ∃ t₁ t₂ t, objectiveTerms o₁.solver.objective = .ok t₁ ∧ objectiveTerms o₂.solver.objective = .ok t₂ ∧
      objectiveTerms o.solver.objective = .ok t ∧ termsVal σ t = termsVal σ₁ t₁ + termsVal σ₂ t₂ := by
  obtain ⟨o₁, h₁, hs₁⟩ := builds_and_solves (σ := exMixSol 2 800 8) (r := systemModel exSys exMix)
    (f := fun o : SysOut => MTree.node o.solver.vars o.solver.cons []) (by decide +kernel)
  obtain ⟨o₂, h₂, hs₂⟩ := builds_and_solves (σ := fun _ _ => 0) (r := systemModel exSys exPower)
    (f := fun o : SysOut => MTree.node o.solver.vars o.solver.cons []) (by decide +kernel)
  obtain ⟨o, h⟩ : ∃ o, systemModel exSys (exMix.union exPower) = .ok o := builds (by decide +kernel)
  obtain ⟨r1, r2⟩ := exPair_ranked
  obtain ⟨σ₁, m₁⟩ := C95 exSys_valid (by decide) exMix_flows.1 exMix_flows.2 h₁ r1 r2 (by
    intro b hb pen hp t _
    simp only [exMix, List.mem_cons, List.not_mem_nil, or_false] at hb
    subst hb
    cases hp
    norm_num [Num.at]) ⟨_, hs₁.1, hs₁.2.1⟩
  obtain ⟨σ₂, m₂⟩ := C95 exSys_valid (by decide) exPower_flows.1 exPower_flows.2 h₂ r1 r2 (by
    intro b hb pen hp t _
    simp only [exPower, List.mem_cons, List.not_mem_nil, or_false] at hb
    subst hb
    cases hp
    norm_num [Num.at]) ⟨_, hs₂.1, hs₂.2.1⟩
  obtain ⟨t₁, t₂, t, u₁, u₂, u, hj, _⟩ := C96 exSys_valid (by decide) exMix_flows.1 exPower_flows.1 (by simp [System.Avoids, exMix, exPower, Comp.inputs, Comp.outputs])
    (by simp [System.Avoids, exMix, exPower, Comp.inputs, Comp.outputs]) rfl (by simp [System.Unlimited, exMix]) r1 r2 h₁ h₂ h
  obtain ⟨σ, m, _, _, e⟩ := hj σ₁ σ₂ m₁ m₂
  exact ⟨o₁, o₂, o, σ₁, σ₂, σ, h₁, h₂, h, m₁, m₂, m, t₁, t₂, t, u₁, u₂, u, e⟩

end Flix
