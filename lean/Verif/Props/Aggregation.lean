import Verif.Lemmas.Aggregation
import Verif.Lemmas.Lengths
import Verif.Props.System

/-!
# C49, C50, C51, C65, C66: aggregated calculations
-/

namespace Flix

variable {sys : Sys} {s : System} {p : AggParams} {cl : ClusterData} {sel : List String} {o : AggOut} {σ : Assignment}

/-! ## What is modelled -/

/-- The components as seen by the aggregation model. -/
def AggOut.parts (o : AggOut) (s : System) : List AggComp := List.zipWith (fun c co => ⟨c.name, c.isStorage, co.tree⟩) s.comps o.comps

/-- All contributions to effects and penalty. -/
def AggOut.calls (o : AggOut) : List ShareCall := (o.comps.map (·.shares)).flatten ++ (o.buses.map (·.shares)).flatten

theorem aggregated_inv (h : aggregatedModel sys s p cl sel = .ok o) :
    List.Forall₂ (fun c oc => Comp.model sys c = .ok oc) s.comps o.comps ∧
    List.Forall₂ (fun b ob => busModel sys b (busFlows (o.comps.map (·.outputs)).flatten b.label)
      (busFlows (o.comps.map (·.inputs)).flatten b.label) = .ok ob) s.buses o.buses ∧
    aggregationModel p cl sel (o.parts s) = .ok o.agg ∧
    collectionModel sys s.effects (o.calls ++ o.agg.shares) = .ok o.coll ∧
    collectModel (o.coll.tree :: o.comps.map CompOut.tree ++ o.buses.map (·.tree) ++ [o.agg.tree]) o.coll.objective = .ok o.solver := by
  unfold aggregatedModel at h
  peel h with comps, h1
  simp only at h
  peel h with buses, h2
  peel h with agg, h3
  peel h with coll, h4
  peel h with solver, h5
  simp only [except_pure, Except.ok.injEq] at h
  subst h
  exact ⟨mapM_ok.1 h1, mapM_ok.1 h2, h3, h4, h5⟩

theorem aggregated_solves (h : aggregatedModel sys s p cl sel = .ok o) (σ : Assignment) :
    o.solver.Solves σ ↔ o.coll.tree.Solves σ ∧ (∀ c ∈ o.comps, c.tree.Solves σ) ∧ (∀ b ∈ o.buses, b.tree.Solves σ) ∧ o.agg.tree.Solves σ := by
  obtain ⟨_, _, _, _, h5⟩ := aggregated_inv h
  rw [collectModel_solves h5, List.cons_append, List.cons_append, MTree.SolvesAll, solvesAll_append, solvesAll_append, solvesAll_iff, solvesAll_iff, solvesAll_iff]
  simp only [List.forall_mem_map, List.forall_mem_cons, List.not_mem_nil, false_imp_iff, implies_true, and_true, and_assoc]

/-- `x` is a variable over time of a component that is to be aggregated: all components if none are selected, storages only on request;
all variables, or only the binary ones. -/
def AggOut.Aggregates (o : AggOut) (s : System) (p : AggParams) (sel : List String) (x : Var) : Prop :=
  ∃ (i : Nat) (c : Comp) (co : CompOut) (m : MTree), s.comps[i]? = some c ∧ o.comps[i]? = some co ∧ (sel = [] ∨ c.label ∈ sel) ∧ ((∃ st, c = .storage st) → p.fixStorageFlows = true) ∧
    MTree.Within m co.tree ∧ x ∈ m.vars ∧ 1 < x.length ∧ (p.fixNonBinary = true ∨ x.isBinary = true)

theorem name_eq (c : Comp) : c.name = c.label := by cases c <;> rfl

theorem isStorage_iff (c : Comp) : c.isStorage = true ↔ ∃ st, c = .storage st := by
  cases c <;> simp [Comp.isStorage]

theorem aggregates_iff {x : Var} : o.Aggregates s p sel x ↔ Tied p sel (o.parts s) x := by
  unfold AggOut.Aggregates Tied AggOut.parts
  constructor
  · rintro ⟨i, c, co, m, h1, h2, h3, h4, h5, h6, h7, h8⟩
    refine ⟨⟨c.name, c.isStorage, co.tree⟩, List.mem_iff_getElem?.2 ⟨i, by simp [List.getElem?_zipWith, h1, h2]⟩, by rw [name_eq]; exact h3, ?_⟩
    exact ⟨fun hs => h4 ((isStorage_iff c).1 hs), ⟨m, h5, h6⟩, h7, h8⟩
  · rintro ⟨a, ha, h3, h4, ⟨m, h5, h6⟩, h7, h8⟩
    obtain ⟨i, hi⟩ := List.mem_iff_getElem?.1 ha
    rw [List.getElem?_zipWith] at hi
    split at hi
    · rename_i c co h1 h2
      simp only [Option.some.injEq] at hi
      subst hi
      exact ⟨i, c, co, m, h1, h2, by rw [← name_eq]; exact h3, fun hs => h4 ((isStorage_iff c).2 hs), h5, h6, h7, h8⟩
    · simp at hi

theorem parts_nodup (h : aggregatedModel sys s p cl sel = .ok o) (hnd : (s.comps.map Comp.label).Nodup) : ((o.parts s).map (·.label)).Nodup := by
  have hl := (aggregated_inv h).1.length_eq
  have : (o.parts s).map (·.label) = s.comps.map Comp.label := by
    apply List.ext_getElem
    · simp [AggOut.parts, hl]
    · intro i h1 h2
      simp [AggOut.parts, name_eq]
  rw [this]; exact hnd

/-- What the aggregation consists of. -/
theorem agg_inv (h : aggregatedModel sys s p cl sel = .ok o) (hnd : (s.comps.map Comp.label).Nodup) :
    ∃ (idx : List Nat × List Nat) (xs : List Var) (outs : List EquateOut), cl.equationIndices true = .ok idx ∧
      List.Forall₂ (fun x e => equateIndices p idx x = .ok e) xs outs ∧ (∀ x, x ∈ xs ↔ o.Aggregates s p sel x) ∧
      o.agg.tree = .node (outs.map EquateOut.vars).flatten (outs.map EquateOut.cons).flatten [] ∧
      o.agg.shares = aggPenalties p (outs.map EquateOut.vars).flatten := by
  obtain ⟨_, _, h3, _⟩ := aggregated_inv h
  obtain ⟨idx, xs, outs, h1, h2, h3, h4, h5⟩ := aggregation_ok h3 (parts_nodup h hnd)
  exact ⟨idx, xs, outs, h1, h2, fun x => by rw [h3, aggregates_iff], h4, h5⟩

/-! ## C49 -/

/-- **C49 (partial).**  In every solution of an aggregated calculation, a variable that is aggregated without corrections (no percentage
given, or not binary) has the same value at the same position of all periods of the same cluster.  Missing: the first position of the
periods, see `C49_first_wrong`. -/
theorem C49_partial (h : aggregatedModel sys s p cl sel = .ok o) (hnd : (s.comps.map Comp.label).Nodup) (hs : o.solver.Solves σ) {x : Var}
    (hx : o.Aggregates s p sel x) (hc : p.percentage ≤ 0 ∨ x.isBinary = false) :
    ∀ p q k j, cl.order[p]? = some k → cl.order[q]? = some k → 0 < j → j < cl.len → p * cl.len + j < cl.total → q * cl.len + j < cl.total →
      σ x.label (p * cl.len + j) = σ x.label (q * cl.len + j) := by
  obtain ⟨idx, xs, outs, h1, h2, h3, h4, _⟩ := agg_inv h hnd
  have hsol := ((aggregated_solves h σ).1 hs).2.2.2
  rw [h4, aggregation_solves] at hsol
  obtain ⟨e, he, hxe⟩ := forall₂_mem_left h2 ((h3 x).2 hx)
  obtain ⟨hv, hcs⟩ := hsol e he
  obtain ⟨hl, ⟨hb, hp, _⟩ | ⟨_, _, e2⟩⟩ := equate_inv hxe
  · rcases hc with hc | hc
    · exact absurd hp (not_lt.2 hc)
    · rw [hb] at hc; simp at hc
  · rw [e2] at hcs
    have := tie_eq hl (hcs _ List.mem_cons_self)
    have key := (rep_iff_samePlace (c := cl) (σ x.label)).1 fun b hb a ha => this a b (((mem_ties h1).2 a b).2 ⟨hb, ha⟩)
    intro p q k j hp hq hj hj' ht ht'
    exact key _ _ ⟨p, q, k, j, hp, hq, hj', hj, rfl, rfl, ht, ht'⟩

theorem ties_range (h : cl.equationIndices true = .ok idx) {n : Nat} (hn : cl.total ≤ n) : (∀ a ∈ idx.1, a < n) ∧ ∀ a ∈ idx.2, a < n := by
  obtain ⟨hl, hm⟩ := mem_ties h
  have hsp := (rep_iff_samePlace (c := cl) fun _ => 0)
  have key : ∀ a b, (a, b) ∈ List.zip idx.1 idx.2 → a < cl.total ∧ b < cl.total := by
    intro a b hab
    obtain ⟨hb, ha⟩ := (hm a b).1 hab
    refine ⟨?_, hb⟩
    unfold ClusterData.rep at ha
    split at ha
    · simp at ha
    · rename_i k hk
      split at ha
      · simp at ha
      · simp only [Option.some.injEq] at ha
        have hle : cl.order.idxOf k * cl.len ≤ b / cl.len * cl.len := Nat.mul_le_mul_right _ (idxOf_le hk)
        have hdm : b / cl.len * cl.len + b % cl.len = b := by rw [mul_comm]; exact Nat.div_add_mod b cl.len
        omega
  constructor
  · intro a ha
    obtain ⟨i, hi, e⟩ := List.mem_iff_getElem.1 ha
    have := (key _ _ (zip_get hl hi).1).1
    rw [idxAt_get (List.getElem?_eq_getElem hi), e] at this
    omega
  · intro a ha
    obtain ⟨i, hi, e⟩ := List.mem_iff_getElem.1 ha
    have := (key _ _ (zip_get (i := i) hl (by omega)).1).2
    rw [idxAt_get (List.getElem?_eq_getElem hi), e] at this
    omega

/-- Every aggregated variable covers the horizon. -/
theorem agg_wide (h : aggregatedModel sys s p cl sel = .ok o) {x : Var} (hx : o.Aggregates s p sel x) : sys.n ≤ x.length := by
  obtain ⟨i, c, co, m, hc, hco, _, _, hm, hxm, hl, _⟩ := hx
  obtain ⟨c', _, hm'⟩ := forall₂_mem_right (aggregated_inv h).1 (List.mem_of_getElem? hco)
  rcases (model_wide hm' m ((within_nodes m _).2 hm) x hxm).1 with e | e
  · omega
  · exact e

theorem agg_ties_iff (h : aggregatedModel sys s p cl sel = .ok o) (hnd : (s.comps.map Comp.label).Nodup) (hp : p.percentage ≤ 0) (htot : cl.total ≤ sys.n) :
    o.agg.tree.Solves σ ↔ ∀ x, o.Aggregates s p sel x → ∀ a b, cl.SamePlace a b → σ x.label a = σ x.label b := by
  obtain ⟨idx, xs, outs, h1, h2, h3, h4, _⟩ := agg_inv h hnd
  rw [h4, aggregation_solves]
  have tie : ∀ x e, o.Aggregates s p sel x → equateIndices p idx x = .ok e →
      (((∀ y ∈ e.vars, y.Ok σ) ∧ ∀ r ∈ e.cons, r.Ok σ) ↔ ∀ a b, cl.SamePlace a b → σ x.label a = σ x.label b) := by
    intro x e hx hxe
    obtain ⟨hl, ⟨_, hp', _⟩ | ⟨_, e1, e2⟩⟩ := equate_inv hxe
    · exact absurd hp' (not_lt.2 hp)
    · obtain ⟨r1, r2⟩ := ties_range h1 (htot.trans (agg_wide h hx))
      rw [e1, e2]
      simp only [List.not_mem_nil, false_imp_iff, implies_true, true_and, List.forall_mem_cons, and_true]
      rw [tie_iff hl r1 r2, ← rep_iff_samePlace (c := cl)]
      constructor
      · intro h b hb a ha; exact h a b (((mem_ties h1).2 a b).2 ⟨hb, ha⟩)
      · intro h a b hab
        obtain ⟨hb, ha⟩ := ((mem_ties h1).2 a b).1 hab
        exact h b hb a ha
  constructor
  · intro hs x hx
    obtain ⟨e, he, hxe⟩ := forall₂_mem_left h2 ((h3 x).2 hx)
    exact (tie x e hx hxe).1 (hs e he)
  · intro hs e he
    obtain ⟨x, hx, hxe⟩ := forall₂_mem_right h2 he
    exact (tie x e ((h3 x).1 hx) hxe).2 (hs x ((h3 x).1 hx))

/-- **C49 (nothing else is tied).**  Without corrections the aggregation demands exactly these equalities: everything else is left free.
The clustered series are not longer than the horizon. -/
theorem C49_iff (h : aggregatedModel sys s p cl sel = .ok o) (hnd : (s.comps.map Comp.label).Nodup) (hp : p.percentage ≤ 0) (htot : cl.total ≤ sys.n) :
    o.solver.Solves σ ↔ (o.coll.tree.Solves σ ∧ (∀ c ∈ o.comps, c.tree.Solves σ) ∧ ∀ b ∈ o.buses, b.tree.Solves σ) ∧
      ∀ x, o.Aggregates s p sel x → ∀ a b, cl.SamePlace a b → σ x.label a = σ x.label b := by
  rw [aggregated_solves h, agg_ties_iff h hnd hp htot]
  simp only [and_assoc]

/-! ### Flow rates -/

theorem model_flow_tree {c : Comp} {co : CompOut} (h : c.model sys = .ok co) : ∀ q ∈ co.flows, q.2.tree ∈ co.subs ∧ q.2.flowRate ∈ q.2.tree.vars ∧ q.2.flowRate.isBinary = false := by
  have base : ∀ (d : CompData) (o0 : CompOut), compModel sys d = .ok o0 → ∀ q ∈ o0.flows, q.2.tree ∈ o0.subs ∧ q.2.flowRate ∈ q.2.tree.vars ∧ q.2.flowRate.isBinary = false := by
    intro d o0 h0 q hq
    obtain ⟨_, _, _, _, _, _, _, e, _⟩ := comp_inv h0
    obtain ⟨f, _, _, hf⟩ := comp_flow_mem h0 q hq
    refine ⟨?_, ?_, (flowRate_ok (flow_inv hf).1).2.2.2.1⟩
    · rw [e]; simp only [List.mem_append, List.mem_map]; exact .inl (.inl ⟨q, hq, rfl⟩)
    · rw [(flow_inv hf).2.2.2.2.1]; simp [MTree.vars]
  cases c with
  | plain c => exact base c co h
  | converter c =>
    change converterModel sys c = .ok co at h
    unfold converterModel at h
    peel h with o0, h0
    split at h
    · simp only [except_pure, Except.ok.injEq] at h
      subst h
      exact base _ o0 h0
    · peel h with pts, h1
      peel h with tree, h2
      simp only [except_pure, Except.ok.injEq] at h
      subst h
      intro q hq
      obtain ⟨a, b⟩ := base _ _ h0 q hq
      exact ⟨List.mem_append_left _ a, b⟩
  | storage st =>
    obtain ⟨so, hso, rfl⟩ := map_ok.1 (show (·.comp) <$> storageModel sys st = .ok co from h)
    clear h
    rename' hso => h
    unfold storageModel at h
    peel h with o0, h0
    peel h with ab, hab
    obtain ⟨a, b⟩ := ab
    simp only at h
    peel h with c, hc
    peel h with nd, hnd
    peel h with cCharge, hcc
    peel h with inv, hinv
    peel h with cIF, hif
    simp only [except_pure, Except.ok.injEq] at h
    subst h
    intro q hq
    obtain ⟨a, b⟩ := base _ _ h0 q hq
    exact ⟨List.mem_append_left _ a, b⟩
  | transmission t =>
    obtain ⟨tr, hto, rfl⟩ := map_ok.1 (show (·.comp) <$> transmissionModel sys t = .ok co from h)
    clear h
    rename' hto => h
    unfold transmissionModel at h
    peel h with o0, h0
    peel h with q, hq
    obtain ⟨i1, i2, o1, o2⟩ := q
    simp only at h
    peel h with c1, h1
    peel h with c2, h2
    simp only [except_pure, Except.ok.injEq] at h
    subst h
    exact base _ o0 h0

/-- **C49 (flow rates).**  If the data are aggregated, all flow rates of the treated components are equal at the same position of the
periods of a cluster, whatever the percentage of freedom of the binaries. -/
theorem C49_flows (h : aggregatedModel sys s p cl sel = .ok o) (hnd : (s.comps.map Comp.label).Nodup) (hs : o.solver.Solves σ) (hn : 1 < sys.n)
    (hfix : p.fixNonBinary = true) {c : Comp} (hc : c ∈ s.comps) (hsel : sel = [] ∨ c.label ∈ sel) (hst : (∃ st, c = .storage st) → p.fixStorageFlows = true)
    {f : FlowData} (hf : f ∈ c.flows) : ∀ a b, cl.SamePlace a b → σ (rateL c.label f.label) a = σ (rateL c.label f.label) b := by
  obtain ⟨hcs, _⟩ := aggregated_inv h
  obtain ⟨i, hi, rfl⟩ := List.mem_iff_getElem.1 hc
  have hi' : i < o.comps.length := by rw [← hcs.length_eq]; exact hi
  have hm := hcs.get hi hi'
  simp only [List.get_eq_getElem] at hm
  have hfo : ∃ q ∈ o.comps[i].flows, FlowOf sys.n s.comps[i].label f q := by
    obtain ⟨r1, r2⟩ := model_flowOf hm
    rcases List.mem_append.1 hf with hf | hf
    · obtain ⟨q, hq, hh⟩ := forall₂_mem_left r1 hf
      exact ⟨q, List.mem_append_left _ hq, hh⟩
    · obtain ⟨q, hq, hh⟩ := forall₂_mem_left r2 hf
      exact ⟨q, List.mem_append_right _ hq, hh⟩
  obtain ⟨q, hq, _, _, hl, hlen⟩ := hfo
  obtain ⟨t1, t2, hd⟩ := model_flow_tree hm q hq
  have := C49_partial h hnd hs (x := q.2.flowRate) ⟨i, _, _, q.2.tree, List.getElem?_eq_getElem hi, List.getElem?_eq_getElem hi', hsel, hst,
    .sub t1 (.refl _), t2, by omega, .inl hfix⟩ (.inr hd)
  rw [hl] at this
  rintro a b ⟨p, q, k, j, h1, h2, h3, h4, rfl, rfl, h5, h6⟩
  exact this p q k j h1 h2 h4 h3 h5 h6

/-! ## C50 -/

/-- Rounding to the next integer, halves to the even one. -/
theorem C50_round (q : ℚ) : |q - pyRound q| ≤ 1 / 2 ∧ (|q - pyRound q| = 1 / 2 → pyRound q % 2 = 0) := by
  have h0 : (q.floor : ℚ) ≤ q := Rat.floor_le q
  have h1 : q < q.floor + 1 := by exact_mod_cast Rat.lt_floor_add_one q
  unfold pyRound
  split
  · rename_i h
    rw [abs_of_nonneg (by linarith)]
    exact ⟨by linarith, fun e => by linarith⟩
  · split
    · rename_i h
      push_cast
      rw [abs_of_nonpos (by linarith)]
      exact ⟨by linarith, fun e => by linarith⟩
    · split
      · rename_i h1 h2 h3
        rw [abs_of_nonneg (by linarith)]
        exact ⟨by linarith, fun _ => h3⟩
      · rename_i h1 h2 h3
        push_cast
        rw [abs_of_nonpos (by linarith)]
        exact ⟨by linarith, fun _ => by omega⟩

/-- **C50.**  With a percentage of freedom, a binary variable differs from the representative of its cluster in at most the given
percentage of all tied steps. -/
theorem C50 (h : aggregatedModel sys s p cl sel = .ok o) (hnd : (s.comps.map Comp.label).Nodup) (hkeys : cl.keys.Nodup) (hs : o.solver.Solves σ) {x : Var}
    (hx : o.Aggregates s p sel x) (hb : x.isBinary = true) (hp : 0 < p.percentage) :
    ((cl.deviations σ x.label).card : ℚ) ≤ pyRound (p.percentage / 100 * cl.copies.card) := by
  obtain ⟨idx, xs, outs, h1, h2, h3, h4, _⟩ := agg_inv h hnd
  have hsol := ((aggregated_solves h σ).1 hs).2.2.2
  rw [h4, aggregation_solves] at hsol
  obtain ⟨e, he, hxe⟩ := forall₂_mem_left h2 ((h3 x).2 hx)
  have hC := equate_corrected hxe hb hp (hsol e he).1 (hsol e he).2
  rw [← hC.sum hkeys h1, ← card_ties hkeys h1]
  exact hC.limit

/-- **C50 (direction).**  Every tied step has its own entry in the two correction variables; `Korr1` is 1 exactly where the variable is
one above its representative, `Korr0` exactly where it is one below; otherwise they agree. -/
theorem C50_direction (h : aggregatedModel sys s p cl sel = .ok o) (hnd : (s.comps.map Comp.label).Nodup) (hkeys : cl.keys.Nodup)
    (hs : o.solver.Solves σ) {x : Var} (hx : o.Aggregates s p sel x) (hb : x.isBinary = true) (hp : 0 < p.percentage) :
    ∃ pos : Nat → Nat, Set.InjOn pos cl.copies ∧ ∀ b ∈ cl.copies, ∃ a, cl.rep b = some a ∧ pos b < cl.copies.card ∧
      ((σ x.label b = σ x.label a ∧ σ ("Aggregation__Model_Korr1_" ++ x.label) (pos b) = 0 ∧ σ ("Aggregation__Model_Korr0_" ++ x.label) (pos b) = 0) ∨
       (σ x.label b = σ x.label a + 1 ∧ σ ("Aggregation__Model_Korr1_" ++ x.label) (pos b) = 1 ∧ σ ("Aggregation__Model_Korr0_" ++ x.label) (pos b) = 0) ∨
       (σ x.label b = σ x.label a - 1 ∧ σ ("Aggregation__Model_Korr1_" ++ x.label) (pos b) = 0 ∧ σ ("Aggregation__Model_Korr0_" ++ x.label) (pos b) = 1)) := by
  obtain ⟨idx, xs, outs, h1, h2, h3, h4, _⟩ := agg_inv h hnd
  have hsol := ((aggregated_solves h σ).1 hs).2.2.2
  rw [h4, aggregation_solves] at hsol
  obtain ⟨e, he, hxe⟩ := forall₂_mem_left h2 ((h3 x).2 hx)
  have hC := equate_corrected hxe hb hp (hsol e he).1 (hsol e he).2
  have hl1 : (korrV "Korr1_" idx.1.length x).label = "Aggregation__Model_Korr1_" ++ x.label := by simp only [korrV, aggEl, ← String.append_assoc]; rfl
  have hl0 : (korrV "Korr0_" idx.1.length x).label = "Aggregation__Model_Korr0_" ++ x.label := by simp only [korrV, aggEl, ← String.append_assoc]; rfl
  have hex : ∀ b ∈ cl.copies, ∃ i < idx.1.length, idxAt idx.2 i = b := by
    intro b hb
    simp only [ClusterData.copies, Finset.mem_filter, Finset.mem_range, Option.isSome_iff_exists] at hb
    obtain ⟨hb, a, ha⟩ := hb
    obtain ⟨i, hi, _, e⟩ := ties_of h1 hb ha
    exact ⟨i, hi, e⟩
  classical
  refine ⟨fun b => if hb : b ∈ cl.copies then (hex b hb).choose else 0, ?_, ?_⟩
  · intro b hb b' hb' e
    have hb : b ∈ cl.copies := hb
    have hb' : b' ∈ cl.copies := hb'
    simp only [hb, hb', dif_pos] at e
    rw [← (hex b hb).choose_spec.2, ← (hex b' hb').choose_spec.2, e]
  · intro b hb
    obtain ⟨hi, e⟩ := (hex b hb).choose_spec
    simp only [hb, dif_pos]
    generalize (hex b hb).choose = i at hi e
    have hr := (ties_at h1 hi).2
    rw [e] at hr
    refine ⟨_, hr, by rw [← card_ties hkeys h1]; exact hi, ?_⟩
    have t := hC.tie i hi
    have l := hC.lock i hi
    have b1 := hC.bin1 i hi
    have b0 := hC.bin0 i hi
    rw [e, hl1, hl0] at t
    rw [hl1, hl0] at l
    rw [hl1] at b1
    rw [hl0] at b0
    rcases b1 with e1 | e1 <;> rcases b0 with e0 | e0 <;> rw [e1, e0] at t l ⊢
    · exact .inl ⟨by linarith, rfl, rfl⟩
    · exact .inr (.inr ⟨by linarith, rfl, rfl⟩)
    · exact .inr (.inl ⟨by linarith, rfl, rfl⟩)
    · norm_num at l

theorem korr_inj {k : String} {n : Nat} {x y : Var} (h : (korrV k n x).label = (korrV k n y).label) : x.label = y.label := by
  simp only [korrV, String.append_right_inj] at h
  exact h

theorem korr_ne {n : Nat} {x y : Var} : (korrV "Korr1_" n x).label ≠ (korrV "Korr0_" n y).label := by
  intro h
  simp only [korrV, String.append_right_inj] at h
  have := congrArg String.toList h
  simp [String.toList_append] at this

/-- Variables of components and those of the aggregation have different labels. -/
theorem agg_disjoint (h : aggregatedModel sys s p cl sel = .ok o) {x v : Var} (hx : o.Aggregates s p sel x) (hv : v ∈ o.agg.tree.vars) : v.label ≠ x.label := by
  obtain ⟨_, _, _, _, h5⟩ := aggregated_inv h
  obtain ⟨p1, _, n1, _⟩ := collectModel_perm h5
  rw [(p1.map _).nodup_iff] at n1
  have hn : ∀ (as bs : List MTree), MTree.nodesAll (as ++ bs) = MTree.nodesAll as ++ MTree.nodesAll bs := by
    intro as bs
    induction as with
    | nil => rfl
    | cons a as ih => simp [MTree.nodesAll, ih]
  rw [hn, List.flatMap_append, List.map_append, List.nodup_append] at n1
  obtain ⟨_, c, co, m, _, hco, _, _, hm, hxm, _⟩ := hx
  intro e
  refine n1.2.2 x.label ?_ v.label ?_ e.symm
  · refine List.mem_map_of_mem (List.mem_flatMap.2 ⟨m, (within_nodesAll m _).2 ⟨co.tree, ?_, hm⟩, hxm⟩)
    have := List.mem_of_getElem? hco
    simp only [List.mem_append, List.mem_cons, List.mem_map]
    exact .inl (.inr ⟨co, this, rfl⟩)
  · exact List.mem_map_of_mem (List.mem_flatMap.2 ⟨o.agg.tree, (within_nodesAll _ _).2 ⟨o.agg.tree, by simp, .refl _⟩, hv⟩)

/-- **C50 (nothing else is forbidden).**  Every choice of values that ties the other variables and deviates no more often than allowed
in the binary ones is compatible with the aggregation, with suitable corrections. -/
theorem C50_complete (h : aggregatedModel sys s p cl sel = .ok o) (hnd : (s.comps.map Comp.label).Nodup) (hkeys : cl.keys.Nodup) (hp : 0 < p.percentage)
    (htot : cl.total ≤ sys.n)
    (hbin : ∀ x, o.Aggregates s p sel x → x.isBinary = true → ∀ b < cl.total, σ x.label b = 0 ∨ σ x.label b = 1)
    (hdev : ∀ x, o.Aggregates s p sel x → x.isBinary = true → ((cl.deviations σ x.label).card : ℚ) ≤ pyRound (p.percentage / 100 * cl.copies.card))
    (htie : ∀ x, o.Aggregates s p sel x → x.isBinary = false → ∀ a b, cl.SamePlace a b → σ x.label a = σ x.label b) :
    ∃ σ' : Assignment, (∀ l, (∀ v ∈ o.agg.tree.vars, v.label ≠ l) → σ' l = σ l) ∧ o.agg.tree.Solves σ' := by
  obtain ⟨idx, xs, outs, h1, h2, h3, h4, _⟩ := agg_inv h hnd
  classical
  let n := idx.1.length
  let up : Var → Nat → Prop := fun x i => σ x.label (idxAt idx.2 i) = σ x.label (idxAt idx.1 i) + 1
  let dn : Var → Nat → Prop := fun x i => σ x.label (idxAt idx.1 i) = σ x.label (idxAt idx.2 i) + 1
  let σ' : Assignment := fun l i =>
    if ∃ x ∈ xs, x.isBinary = true ∧ l = (korrV "Korr1_" n x).label then (if ∃ x ∈ xs, l = (korrV "Korr1_" n x).label ∧ up x i then 1 else 0)
    else if ∃ x ∈ xs, x.isBinary = true ∧ l = (korrV "Korr0_" n x).label then (if ∃ x ∈ xs, l = (korrV "Korr0_" n x).label ∧ dn x i then 1 else 0)
    else σ l i
  have hvars : ∀ x ∈ xs, x.isBinary = true → ∀ k, k = "Korr1_" ∨ k = "Korr0_" → ∃ v ∈ o.agg.tree.vars, v.label = (korrV k n x).label := by
    intro x hx hb k hk
    obtain ⟨e, he, hxe⟩ := forall₂_mem_left h2 hx
    obtain ⟨_, ⟨_, _, e1, _⟩ | ⟨hn, _⟩⟩ := equate_inv hxe
    · refine ⟨korrV k n x, ?_, rfl⟩
      rw [h4]
      simp only [MTree.vars, List.mem_flatten, List.mem_map, exists_exists_and_eq_and]
      refine ⟨e, he, ?_⟩
      rw [e1]
      rcases hk with rfl | rfl <;> simp [n]
    · exact absurd ⟨hb, hp⟩ hn
  have hoff : ∀ l, (∀ v ∈ o.agg.tree.vars, v.label ≠ l) → σ' l = σ l := by
    intro l hl
    funext i
    have n1 : ¬ ∃ x ∈ xs, x.isBinary = true ∧ l = (korrV "Korr1_" n x).label := by
      rintro ⟨x, hx, hb, rfl⟩
      obtain ⟨v, hv, e⟩ := hvars x hx hb "Korr1_" (.inl rfl)
      exact hl v hv e
    have n0 : ¬ ∃ x ∈ xs, x.isBinary = true ∧ l = (korrV "Korr0_" n x).label := by
      rintro ⟨x, hx, hb, rfl⟩
      obtain ⟨v, hv, e⟩ := hvars x hx hb "Korr0_" (.inr rfl)
      exact hl v hv e
    simp only [σ', n1, n0, if_false]
  have hon : ∀ x, o.Aggregates s p sel x → σ' x.label = σ x.label := fun x hx => hoff _ fun v hv => agg_disjoint h hx hv
  have hk1 : ∀ x ∈ xs, x.isBinary = true → ∀ i, σ' (korrV "Korr1_" n x).label i = if up x i then 1 else 0 := by
    intro x hx hb i
    have e1 : (∃ y ∈ xs, y.isBinary = true ∧ (korrV "Korr1_" n x).label = (korrV "Korr1_" n y).label) := ⟨x, hx, hb, rfl⟩
    have e2 : (∃ y ∈ xs, (korrV "Korr1_" n x).label = (korrV "Korr1_" n y).label ∧ up y i) ↔ up x i := by
      constructor
      · rintro ⟨y, _, e, hu⟩
        simp only [up] at hu ⊢
        rwa [korr_inj e]
      · exact fun hu => ⟨x, hx, rfl, hu⟩
    simp only [σ', e1, if_true, e2]
  have hk0 : ∀ x ∈ xs, x.isBinary = true → ∀ i, σ' (korrV "Korr0_" n x).label i = if dn x i then 1 else 0 := by
    intro x hx hb i
    have e1 : (∃ y ∈ xs, y.isBinary = true ∧ (korrV "Korr0_" n x).label = (korrV "Korr0_" n y).label) := ⟨x, hx, hb, rfl⟩
    have e3 : ¬ ∃ y ∈ xs, y.isBinary = true ∧ (korrV "Korr0_" n x).label = (korrV "Korr1_" n y).label := by
      rintro ⟨y, _, _, e⟩
      exact korr_ne e.symm
    have e2 : (∃ y ∈ xs, (korrV "Korr0_" n x).label = (korrV "Korr0_" n y).label ∧ dn y i) ↔ dn x i := by
      constructor
      · rintro ⟨y, _, e, hu⟩
        simp only [dn] at hu ⊢
        rwa [korr_inj e]
      · exact fun hu => ⟨x, hx, rfl, hu⟩
    simp only [σ', e1, e3, if_false, if_true, e2]
  refine ⟨σ', hoff, ?_⟩
  rw [h4, aggregation_solves]
  intro e he
  obtain ⟨x, hx, hxe⟩ := forall₂_mem_right h2 he
  have hxa := (h3 x).1 hx
  obtain ⟨r1, r2⟩ := ties_range h1 (htot.trans (agg_wide h hxa))
  obtain ⟨t1, t2⟩ := ties_range h1 (le_refl cl.total)
  cases hb : x.isBinary with
  | false =>
    obtain ⟨hl, ⟨hb', _⟩ | ⟨_, e1, e2⟩⟩ := equate_inv hxe
    · rw [hb] at hb'; simp at hb'
    rw [e1, e2]
    simp only [List.not_mem_nil, false_imp_iff, implies_true, true_and, List.forall_mem_cons, and_true]
    rw [tie_iff hl r1 r2, hon x hxa]
    intro a b hab
    obtain ⟨hb, ha⟩ := ((mem_ties h1).2 a b).1 hab
    exact (rep_iff_samePlace (c := cl) (σ x.label)).2 (htie x hxa ‹_›) b hb a ha
  | true =>
    refine corrected_equate hxe hb hp r1 r2 ?_
    have hC : Corrected σ' idx x (∑ i ∈ Finset.range idx.1.length, σ' (korrV "Korr1_" idx.1.length x).label i +
        ∑ i ∈ Finset.range idx.1.length, σ' (korrV "Korr0_" idx.1.length x).label i) := by
      have two : ∀ i < idx.1.length, (σ x.label (idxAt idx.1 i) = 0 ∨ σ x.label (idxAt idx.1 i) = 1) ∧ (σ x.label (idxAt idx.2 i) = 0 ∨ σ x.label (idxAt idx.2 i) = 1) := by
        intro i hi
        have hi' : i < idx.2.length := by rw [← (mem_ties h1).1]; exact hi
        rw [idxAt_get (List.getElem?_eq_getElem hi), idxAt_get (List.getElem?_eq_getElem hi')]
        exact ⟨hbin x hxa hb _ (t1 _ (List.getElem_mem hi)), hbin x hxa hb _ (t2 _ (List.getElem_mem hi'))⟩
      refine ⟨fun i _ => ?_, fun i _ => ?_, fun i hi => ?_, fun i hi => ?_, le_refl _⟩
      · rw [hk1 x hx hb]; split <;> simp
      · rw [hk0 x hx hb]; split <;> simp
      · rw [hk1 x hx hb, hk0 x hx hb, hon x hxa]
        simp only [up, dn]
        rcases two i hi with ⟨e1 | e1, e2 | e2⟩ <;> rw [e1, e2] <;> norm_num
      · rw [hk1 x hx hb, hk0 x hx hb]
        simp only [up, dn]
        rcases two i hi with ⟨e1 | e1, e2 | e2⟩ <;> rw [e1, e2] <;> norm_num
    refine ⟨hC.bin1, hC.bin0, hC.tie, hC.lock, ?_⟩
    rw [hC.sum hkeys h1, card_ties hkeys h1]
    have : cl.deviations σ' x.label = cl.deviations σ x.label := by unfold ClusterData.deviations; rw [hon x hxa]
    rw [this]
    exact hdev x hxa hb

/-! ## C66 -/

theorem nodup_of_flatten {α β γ} {g : α → γ} {F : β → List γ} {xs : List α} {outs : List β} (h : List.Forall₂ (fun x e => g x ∈ F e) xs outs)
    (hn : ((outs.map F).flatten).Nodup) : (xs.map g).Nodup := by
  induction h with
  | nil => simp
  | @cons x e xs outs h1 h2 ih =>
    simp only [List.map_cons, List.flatten_cons, List.nodup_append] at hn
    rw [List.map_cons, List.nodup_cons]
    refine ⟨fun hm => ?_, ih hn.2.1⟩
    obtain ⟨y, hy, e⟩ := List.mem_map.1 hm
    obtain ⟨e', he', hg⟩ := forall₂_mem_left h2 hy
    exact hn.2.2 _ h1 (g y) (List.mem_flatten.2 ⟨_, List.mem_map_of_mem he', hg⟩) e.symm

theorem agg_shares_value (hkeys : cl.keys.Nodup) {idx : List Nat × List Nat} (h1 : cl.equationIndices true = .ok idx) {xs : List Var} {outs : List EquateOut}
    (h2 : List.Forall₂ (fun x e => equateIndices p idx x = .ok e) xs outs) (hp : 0 < p.percentage)
    (hs : ∀ e ∈ outs, (∀ y ∈ e.vars, y.Ok σ) ∧ ∀ r ∈ e.cons, r.Ok σ) (q : ℚ) :
    ((outs.map EquateOut.vars).flatten.map fun x => q * ∑ i ∈ Finset.range x.length, σ x.label i).sum =
      q * ((xs.filter (·.isBinary)).map fun x => ((cl.deviations σ x.label).card : ℚ)).sum := by
  induction h2 with
  | nil => simp
  | @cons x e xs outs hd tl ih =>
    have ih := ih fun e he => hs e (List.mem_cons_of_mem _ he)
    have hse := hs e List.mem_cons_self
    simp only [List.map_cons, List.flatten_cons, List.map_append, List.sum_append, ih]
    obtain ⟨_, ⟨hb, _, e1, _⟩ | ⟨hn, e1, _⟩⟩ := equate_inv hd
    · have hC := equate_corrected hd hb hp hse.1 hse.2
      rw [List.filter_cons_of_pos (by simpa using hb), e1]
      simp only [List.map_cons, List.map_nil, List.sum_cons, List.sum_nil]
      rw [mul_add, ← hC.sum hkeys h1]
      simp only [korrV]
      ring
    · have hb : ¬ x.isBinary = true := fun hb => hn ⟨hb, hp⟩
      rw [List.filter_cons_of_neg (by simpa using hb), e1]
      simp

/-- The shares of the aggregation. -/
theorem agg_penalty (h : aggregatedModel sys s p cl sel = .ok o) (hnd : (s.comps.map Comp.label).Nodup) (hkeys : cl.keys.Nodup) :
    (∀ c ∈ o.agg.shares, c.WellFormed sys.n ∧ c.target = .penalty) ∧
    ∃ xs : List Var, xs.Nodup ∧ (∀ x, x ∈ xs ↔ o.Aggregates s p sel x ∧ x.isBinary = true) ∧
      ∀ σ : Assignment, o.solver.Solves σ → (o.agg.shares.map fun c => c.share.value σ 0).sum =
        if 0 < p.percentage then p.penalty * (xs.map fun x => ((cl.deviations σ x.label).card : ℚ)).sum else 0 := by
  obtain ⟨idx, xs, outs, h1, h2, h3, h4, h5⟩ := agg_inv h hnd
  refine ⟨?_, xs.filter (·.isBinary), ?_, ?_, ?_⟩
  · rw [h5]
    unfold aggPenalties
    split
    · simp only [List.forall_mem_map]
      intro x _
      refine ⟨?_, trivial⟩
      simp [ShareCall.WellFormed, ShareCall.share, Share.WellFormed, Num.isScalar]
    · simp
  · have hn : (xs.map fun x => aggEl ++ "_" ++ ("Equate_indices_of_" ++ x.label)).Nodup := by
      refine nodup_of_flatten (F := fun e : EquateOut => e.cons.map ConReq.label) (outs := outs) (forall₂_imp' h2 fun x _ e hxe => ?_) ?_
      · obtain ⟨_, ⟨_, _, _, e2⟩ | ⟨_, _, e2⟩⟩ := equate_inv hxe <;> rw [e2] <;> exact List.mem_cons_self
      · obtain ⟨_, _, _, _, h6⟩ := aggregated_inv h
        obtain ⟨_, p2, _, n2, _⟩ := collectModel_perm h6
        rw [(p2.map _).nodup_iff] at n2
        have hn : ∀ (as bs : List MTree), MTree.nodesAll (as ++ bs) = MTree.nodesAll as ++ MTree.nodesAll bs := by
          intro as bs
          induction as with
          | nil => rfl
          | cons a as ih => simp [MTree.nodesAll, ih]
        rw [hn, List.flatMap_append, List.map_append, List.nodup_append] at n2
        have := n2.2.1
        rw [h4] at this
        simpa [MTree.nodesAll, MTree.nodes, MTree.cons, List.map_flatten, List.map_map, Function.comp_def] using this
    exact (List.Nodup.of_map _ hn).filter _
  · intro x
    rw [List.mem_filter, h3]
  · intro σ hs
    have hsol := ((aggregated_solves h σ).1 hs).2.2.2
    rw [h4, aggregation_solves] at hsol
    rw [h5]
    unfold aggPenalties
    by_cases hp : 0 < p.percentage
    · rw [if_pos hp]
      by_cases hq : p.penalty = 0
      · rw [if_neg (by simp [hq]), hq]; simp
      · rw [if_pos ⟨hp, hq⟩, List.map_map, ← agg_shares_value hkeys h1 h2 hp hsol p.penalty]
        congr 1
        apply List.map_congr_left
        intro x _
        simp only [Function.comp_apply, ShareCall.share, Share.value, if_true]
        simp [weighted, Finset.mul_sum]
    · rw [if_neg (fun hh => hp hh.1), if_neg hp]; simp

theorem aggregated_calls (hv : sys.Valid) (hf : s.Fits sys.n) (h : aggregatedModel sys s p cl sel = .ok o) (hnd : (s.comps.map Comp.label).Nodup) (hkeys : cl.keys.Nodup) :
    (∀ c ∈ o.calls ++ o.agg.shares, c.WellFormed sys.n) ∧
    ∃ xs : List Var, xs.Nodup ∧ (∀ x, x ∈ xs ↔ o.Aggregates s p sel x ∧ x.isBinary = true) ∧
    ∀ σ : Assignment, o.solver.Solves σ → (((o.calls ++ o.agg.shares).filter fun c => decide (c.target = .penalty)).map fun c => c.share.value σ 0).sum =
      (s.buses.map fun b => b.penaltyCost sys σ).sum +
        if 0 < p.percentage then p.penalty * (xs.map fun x => ((cl.deviations σ x.label).card : ℚ)).sum else 0 := by
  obtain ⟨hc, hb, _⟩ := aggregated_inv h
  obtain ⟨w, _, _, d⟩ := elements_calls hv hf hc hb
  obtain ⟨w', xs, x1, x2, x3⟩ := agg_penalty h hnd hkeys
  refine ⟨fun c hcm => ?_, xs, x1, x2, fun σ hs => ?_⟩
  · rcases List.mem_append.1 hcm with hcm | hcm
    · exact w c hcm
    · exact (w' c hcm).1
  · rw [List.filter_append, List.map_append, List.sum_append]
    congr 1
    · exact d σ
    · rw [List.filter_eq_self.2 fun c hcm => by simpa using (w' c hcm).2]
      exact x3 σ hs

/-- **C66.**  The penalty of an aggregated calculation is that of the buses plus the given penalty for every deviation of every tied
binary variable. -/
theorem C66 (hv : sys.Valid) (hn : sys.n ≠ 0) (hf : s.Fits sys.n) (h : aggregatedModel sys s p cl sel = .ok o) (hnd : (s.comps.map Comp.label).Nodup)
    (hkeys : cl.keys.Nodup) :
    ∃ xs : List Var, xs.Nodup ∧ (∀ x, x ∈ xs ↔ o.Aggregates s p sel x ∧ x.isBinary = true) ∧ ∀ σ : Assignment, o.solver.Solves σ →
      σ "Effects__penalty_penalty_sum" 0 = (s.buses.map fun b => b.penaltyCost sys σ).sum +
        if 0 < p.percentage then p.penalty * (xs.map fun x => ((cl.deviations σ x.label).card : ℚ)).sum else 0 := by
  obtain ⟨_, _, _, h4, _⟩ := aggregated_inv h
  obtain ⟨w, xs, x1, x2, x3⟩ := aggregated_calls hv hf h hnd hkeys
  refine ⟨xs, x1, x2, fun σ hs => ?_⟩
  rw [C21_penalty hv hn h4 hf.effects w ((aggregated_solves h σ).1 hs).1, x3 σ hs]

/-- **C66 (objective).**  The minimised value is the total of the objective effect plus these penalties. -/
theorem C66_objective (hv : sys.Valid) (hn : sys.n ≠ 0) (hf : s.Fits sys.n) (h : aggregatedModel sys s p cl sel = .ok o)
    (hnd : (s.comps.map Comp.label).Nodup) (hkeys : cl.keys.Nodup) :
    ∃ terms e, ∃ xs : List Var, objectiveTerms o.solver.objective = .ok terms ∧ s.effects.find? (·.isObjective) = some e ∧ xs.Nodup ∧
      (∀ x, x ∈ xs ↔ o.Aggregates s p sel x ∧ x.isBinary = true) ∧ ∀ σ : Assignment, o.solver.Solves σ →
      termsVal σ terms = σ (e.label ++ "__all_all_sum") 0 + ((s.buses.map fun b => b.penaltyCost sys σ).sum +
        if 0 < p.percentage then p.penalty * (xs.map fun x => ((cl.deviations σ x.label).card : ℚ)).sum else 0) := by
  obtain ⟨_, _, _, h4, h5⟩ := aggregated_inv h
  obtain ⟨w, xs, x1, x2, x3⟩ := aggregated_calls hv hf h hnd hkeys
  obtain ⟨terms, ht⟩ := C22_translatable hv hn h4 hf.effects w
  obtain ⟨e, he, hval⟩ := C22 hv hn h4 hf.effects w ht
  refine ⟨terms, e, xs, by rw [(collectModel_perm h5).2.2.2.2]; exact ht, he, x1, x2, fun σ hs => ?_⟩
  rw [hval σ ((aggregated_solves h σ).1 hs).1, x3 σ hs]

/-! ## C51 -/

theorem collection_inv' {ss ss' : List AggSeries} (h : seriesCollection ss = .ok ss') :
    (ss.map (·.label)).Nodup ∧ ss' = ss.map fun s => { s with weight := some (groupWeight ss s) } := by
  unfold seriesCollection at h
  split at h
  · simp only [Except.ok.injEq] at h; exact ⟨‹_›, h.symm⟩
  · simp at h

theorem groupSize_eq (ss : List AggSeries) (g : String) : groupSize ss g = (ss.filter fun s => s.group = some g).length := by
  unfold groupSize
  induction ss with
  | nil => rfl
  | cons s ss ih =>
    cases hg : s.group with
    | none => rw [List.filterMap_cons_none hg, List.filter_cons_of_neg (by simp [hg])]; exact ih
    | some g' =>
      rw [List.filterMap_cons_some hg, List.count_cons, ih]
      by_cases e : g' = g
      · subst e; rw [List.filter_cons_of_pos (by simp [hg])]; simp
      · rw [List.filter_cons_of_neg (by simp [hg, e])]; simp [e]

/-- **C51 (groups).**  The clustering weights of all series of a group sum up to 1, and are all the same. -/
theorem C51_group {ss ss' : List AggSeries} (h : seriesCollection ss = .ok ss') {g : String} (hg : ∃ s ∈ ss, s.group = some g) :
    ∃ ws : List ℚ, (ss'.filter fun s => s.group = some g).map (·.weight) = ws.map some ∧ ws.sum = 1 ∧
      ∀ w ∈ ws, w = 1 / ((ss.filter fun s => s.group = some g).length : ℚ) := by
  obtain ⟨_, rfl⟩ := collection_inv' h
  have hpos : (ss.filter fun s => s.group = some g).length ≠ 0 := by
    obtain ⟨s, hs, e⟩ := hg
    have : s ∈ ss.filter fun s => s.group = some g := by simp [hs, e]
    exact Nat.pos_iff_ne_zero.1 (List.length_pos_of_mem this)
  refine ⟨List.replicate (ss.filter fun s => s.group = some g).length (1 / ((ss.filter fun s => s.group = some g).length : ℚ)), ?_, ?_, ?_⟩
  · rw [List.filter_map, List.map_map, List.map_replicate]
    apply List.eq_replicate_iff.2
    refine ⟨by simp [Function.comp_def], ?_⟩
    intro w hw
    simp only [List.mem_map, List.mem_filter, Function.comp_apply, decide_eq_true_eq] at hw
    obtain ⟨s, ⟨_, e⟩, rfl⟩ := hw
    unfold groupWeight
    rw [e]
    simp only
    rw [groupSize_eq, if_neg hpos]
  · rw [List.sum_replicate, nsmul_eq_mul]
    field_simp
  · intro w hw
    exact List.eq_of_mem_replicate hw

/-- **C51 (partial): other series.**  A series without group keeps a given weight different from 0; without a weight it gets 1.  Labels
and groups remain.  Missing: a given weight of 0, see `C51_wrong`. -/
theorem C51_partial {ss ss' : List AggSeries} (h : seriesCollection ss = .ok ss') :
    List.Forall₂ (fun s s' => s'.label = s.label ∧ s'.group = s.group ∧
      (s.group = none → (s.weight = none → s'.weight = some 1) ∧ ∀ w, s.weight = some w → w ≠ 0 → s'.weight = some w)) ss ss' := by
  obtain ⟨_, rfl⟩ := collection_inv' h
  rw [List.forall₂_map_right_iff]
  refine List.forall₂_same.2 fun s _ => ⟨rfl, rfl, fun hg => ⟨fun hw => ?_, fun w hw h0 => ?_⟩⟩
  · simp [groupWeight, hg, hw, orOne]
  · simp [groupWeight, hg, hw, orOne, h0]

/-- A weight of 0 that was given becomes 1: the series takes full part in the clustering although it was to be ignored. -/
theorem C51_wrong : ∃ ss ss' : List AggSeries, (∀ s ∈ ss, mkAggSeries s.label s.group s.weight = .ok s) ∧ seriesCollection ss = .ok ss' ∧
    ∃ s ∈ ss, ∃ s' ∈ ss', s'.label = s.label ∧ s.group = none ∧ s.weight = some 0 ∧ s'.weight = some 1 := by
  refine ⟨[⟨"load", none, some 0⟩, ⟨"price", none, none⟩], [⟨"load", none, some 1⟩, ⟨"price", none, some 1⟩], ?_, by decide +kernel, ⟨"load", none, some 0⟩,
    by simp, ⟨"load", none, some 1⟩, by simp, rfl, rfl, rfl, rfl⟩
  simp [mkAggSeries]

/-- Two series with the same label are refused, and only those. -/
theorem C51_refused (ss : List AggSeries) : (∃ ss', seriesCollection ss = .ok ss') ↔ (ss.map (·.label)).Nodup := by
  unfold seriesCollection
  split <;> simp [*]

/-- The weights found are written into the series themselves; collecting the same series again (for another calculation) changes nothing. -/
theorem C51_again {ss ss' : List AggSeries} (h : seriesCollection ss = .ok ss') : seriesCollection ss' = .ok ss' := by
  obtain ⟨hn, rfl⟩ := collection_inv' h
  unfold seriesCollection
  have e1 : (ss.map fun s => { s with weight := some (groupWeight ss s) }).map (·.label) = ss.map (·.label) := by rw [List.map_map]; rfl
  rw [if_pos (by rw [e1]; exact hn), List.map_map]
  congr 1
  apply List.map_congr_left
  intro s hs
  simp only [Function.comp_apply, AggSeries.mk.injEq, true_and, Option.some.injEq]
  have hsz : ∀ g, groupSize (ss.map fun s => { s with weight := some (groupWeight ss s) }) g = groupSize ss g := by
    intro g; unfold groupSize; rw [List.filterMap_map]; rfl
  have hor : ∀ w : Option ℚ, orOne (some (orOne w)) = orOne w := by
    intro w
    cases w with
    | none => simp [orOne]
    | some w => by_cases e : w = 0 <;> simp [orOne, e]
  generalize (ss.map fun s => ({ s with weight := some (groupWeight ss s) } : AggSeries)) = T at hsz
  cases hg : s.group with
  | none => simp only [groupWeight, hg, hor]
  | some g =>
    simp only [groupWeight, hg, hsz]
    split
    · exact hor _
    · rfl

/-- A collection with a group of two, a given weight and no weight. -/
example : seriesCollection [⟨"a", some "g", none⟩, ⟨"b", none, some 3⟩, ⟨"c", some "g", none⟩, ⟨"d", none, none⟩] =
    .ok [⟨"a", some "g", some (1 / 2)⟩, ⟨"b", none, some 3⟩, ⟨"c", some "g", some (1 / 2)⟩, ⟨"d", none, some 1⟩] := by decide +kernel

/-! ## C65 -/

theorem isInteger_iff (q : ℚ) : isInteger q = true ↔ ∃ k : ℤ, q = k := by
  unfold isInteger
  rw [beq_iff_eq]
  constructor
  · intro h; exact ⟨q.num, by rw [Rat.coe_int_num_of_den_eq_one h]⟩
  · rintro ⟨k, rfl⟩; simp

/-- **C65.**  An aggregated calculation is accepted exactly if all steps have the same width (not 0) and the period is a multiple of it;
the number of steps per period is then that multiple. -/
theorem C65 (dt : List ℚ) (hours q : ℚ) : checkPeriods dt hours = .ok q ↔
    ∃ d, dt ≠ [] ∧ (∀ x ∈ dt, x = d) ∧ d ≠ 0 ∧ ∃ k : ℤ, hours = k * d ∧ q = k := by
  cases dt with
  | nil => simp [checkPeriods]
  | cons d ds =>
    unfold checkPeriods
    simp only
    by_cases hu : ds.any (· != d)
    · rw [if_pos hu]
      simp only [reduceCtorEq, ne_eq, not_false_eq_true, true_and, false_iff, not_exists, not_and]
      intro d' hall
      obtain ⟨x, hx, hne⟩ := List.any_eq_true.1 hu
      have e1 := hall d List.mem_cons_self
      have e2 := hall x (List.mem_cons_of_mem _ hx)
      rw [e2, ← e1] at hne
      simp at hne
    · rw [if_neg hu]
      have hall : ∀ x ∈ d :: ds, x = d := by
        intro x hx
        rcases List.mem_cons.1 hx with rfl | hx
        · rfl
        · by_contra hne
          exact hu (List.any_eq_true.2 ⟨x, hx, by simpa using hne⟩)
      constructor
      · intro h
        split at h
        · simp at h
        · rename_i h0
          split at h
          · rename_i hi
            simp only [Except.ok.injEq] at h
            obtain ⟨k, hk⟩ := (isInteger_iff _).1 hi
            refine ⟨d, by simp, hall, h0, k, ?_, by rw [← h, hk]⟩
            rw [← hk]; field_simp
          · simp at h
      · rintro ⟨d', _, hall', h0, k, rfl, rfl⟩
        have e : d = d' := hall' d List.mem_cons_self
        subst e
        rw [if_neg h0, mul_div_assoc, div_self h0, mul_one, if_pos ((isInteger_iff _).2 ⟨k, rfl⟩)]

/-- Steps of different width are a `ValueError`, a period that is no multiple any other exception. -/
theorem C65_refused (dt : List ℚ) (hours : ℚ) : checkPeriods dt hours = .error .value ↔ dt = [] ∨ ∃ x ∈ dt, ∃ y ∈ dt, x ≠ y := by
  cases dt with
  | nil => simp [checkPeriods]
  | cons d ds =>
    unfold checkPeriods
    simp only
    by_cases hu : ds.any (· != d)
    · rw [if_pos hu]
      obtain ⟨x, hx, hne⟩ := List.any_eq_true.1 hu
      simp only [true_iff]
      exact .inr ⟨x, List.mem_cons_of_mem _ hx, d, List.mem_cons_self, by simpa using hne⟩
    · rw [if_neg hu]
      have hall : ∀ x ∈ d :: ds, x = d := by
        intro x hx
        rcases List.mem_cons.1 hx with rfl | hx
        · rfl
        · by_contra hne
          exact hu (List.any_eq_true.2 ⟨x, hx, by simpa using hne⟩)
      have : ¬ ((d :: ds) = [] ∨ ∃ x ∈ d :: ds, ∃ y ∈ d :: ds, x ≠ y) := by
        rintro (h | ⟨x, hx, y, hy, hne⟩)
        · simp at h
        · exact hne ((hall x hx).trans (hall y hy).symm)
      simp only [this, iff_false]
      split
      · simp
      · split <;> simp

example : checkPeriods [1 / 2, 1 / 2, 1 / 2, 1 / 2] 1 = .ok 2 := by decide +kernel
example : checkPeriods [1 / 2, 1 / 2, 1 / 2, 1 / 2] (3 / 4) = .error .exception := by decide +kernel

/-! ## Examples: a generator with on/off and a load over three periods of three steps -/

def exAggSys : Sys := { n := 9, dt := List.replicate 9 1, total := 9, prevDt := .s 1, cfg := exCfg }

theorem exAggSys_valid : exAggSys.Valid := by
  refine ⟨rfl, ?_, ?_, ?_⟩
  · intro d hd; simp [exAggSys] at hd; subst hd; norm_num
  · simp [exAggSys]; norm_num
  · simp [exAggSys, exCfg]

def exAggOut : FlowData := { label := "Q", bus := "el", size := .num 10, onOff := some {}, effectsPerFlowHour := [(none, .s 2)] }

def exAggLoad : FlowData := { label := "Q", bus := "el", size := .num 10 }

def exAggSystem : System :=
  { effects := [{ label := "costs", isStandard := true, isObjective := true }]
    comps := [.plain { label := "Gen", inputs := [], outputs := [exAggOut] }, .plain { label := "Load", inputs := [exAggLoad], outputs := [] }]
    buses := [{ label := "el", excessPenalty := none }] }

def exCluster : ClusterData := ⟨[0], [0, 0, 0], 3, 9⟩

/-- Everything tied. -/
def exTied : AggParams := { fixStorageFlows := false, fixNonBinary := true }

/-- Only binaries, with half of the steps free at 5 each. -/
def exFree : AggParams := { fixStorageFlows := false, fixNonBinary := false, percentage := 50, penalty := 5 }

def exTiedSol : Assignment := tableSol
  [("Gen__Q__OnOff_on", [1, 1, 1, 1, 1, 1, 1, 1, 1]), ("Gen__Q_flow_rate", [3, 5, 4, 1, 5, 4, 2, 5, 4]), ("Load__Q_flow_rate", [3, 5, 4, 1, 5, 4, 2, 5, 4]),
   ("Gen__Q_sumFlowHours", [33]), ("Load__Q_sumFlowHours", [33]), ("Gen__Q__OnOff_totalOnHours", [9]), ("Gen__Q__OnOff_switchOn", [1]),
   ("Gen__Q__OnOff_nrSwitchOn", [1]),
   ("costs__Gen__Q__effects_per_flow_hour", [6, 10, 8, 2, 10, 8, 4, 10, 8]), ("costs__operation_operation_sum_TS", [6, 10, 8, 2, 10, 8, 4, 10, 8]),
   ("costs__operation_operation_sum", [66]), ("costs__operation", [66]), ("costs__all_all_sum", [66])]

/-- On in the last two steps of the second period only. -/
def exFreeSol : Assignment := tableSol
  [("Effects__penalty_penalty_sum", [15]), ("Effects__Aggregation_penalty__Aggregation__Model_Korr1_Gen__Q__OnOff_on", [10]),
   ("Effects__Aggregation_penalty__Aggregation__Model_Korr1_Gen__Q__OnOff_switchOn", [5]), ("Aggregation__Model_Korr1_Gen__Q__OnOff_on", [1, 1]),
   ("Aggregation__Model_Korr1_Gen__Q__OnOff_switchOn", [1]), ("Gen__Q__OnOff_on", [0, 0, 0, 0, 1, 1]), ("Gen__Q_flow_rate", [0, 0, 0, 0, 5, 5]),
   ("Load__Q_flow_rate", [0, 0, 0, 0, 5, 5]), ("Gen__Q_sumFlowHours", [10]), ("Load__Q_sumFlowHours", [10]), ("Gen__Q__OnOff_totalOnHours", [2]),
   ("Gen__Q__OnOff_switchOn", [0, 0, 0, 0, 1]), ("Gen__Q__OnOff_switchOff", [0, 0, 0, 0, 0, 0, 1]), ("Gen__Q__OnOff_nrSwitchOn", [1]),
   ("costs__Gen__Q__effects_per_flow_hour", [0, 0, 0, 0, 10, 10]), ("costs__operation_operation_sum_TS", [0, 0, 0, 0, 10, 10]),
   ("costs__operation_operation_sum", [20]), ("costs__operation", [20]), ("costs__all_all_sum", [20])]

theorem exTied_ok : ∃ o, aggregatedModel exAggSys exAggSystem exTied exCluster [] = .ok o ∧ o.solver.Solves exTiedSol := by
  obtain ⟨o, h, hs⟩ := builds_and_solves (σ := exTiedSol) (r := aggregatedModel exAggSys exAggSystem exTied exCluster [])
    (f := fun o : AggOut => MTree.node o.solver.vars o.solver.cons []) (by decide +kernel)
  exact ⟨o, h, hs.1, hs.2.1⟩

theorem exFree_ok : ∃ o, aggregatedModel exAggSys exAggSystem exFree exCluster [] = .ok o ∧ o.solver.Solves exFreeSol := by
  obtain ⟨o, h, hs⟩ := builds_and_solves (σ := exFreeSol) (r := aggregatedModel exAggSys exAggSystem exFree exCluster [])
    (f := fun o : AggOut => MTree.node o.solver.vars o.solver.cons []) (by decide +kernel)
  exact ⟨o, h, hs.1, hs.2.1⟩

theorem exAgg_nodup : (exAggSystem.comps.map Comp.label).Nodup := by decide +kernel

theorem exAgg_fits : exAggSystem.Fits exAggSys.n := by
  refine ⟨?_, ?_, ?_⟩
  · simp only [exAggSystem, List.forall_mem_cons, List.not_mem_nil, false_imp_iff, implies_true, and_true]
    constructor <;> simp
  · simp only [exAggSystem, List.forall_mem_cons, List.not_mem_nil, false_imp_iff, implies_true, and_true]
    refine ⟨⟨?_, by simp [Comp.onOff], by simp⟩, ⟨?_, by simp [Comp.onOff], by simp⟩⟩ <;>
    simp only [Comp.flows, Comp.inputs, Comp.outputs, List.nil_append, List.append_nil, List.forall_mem_cons, List.not_mem_nil,
      false_imp_iff, implies_true, and_true]
    · refine ⟨by simp [exAggOut, EffDict.Series, Num.isScalar], ?_, by simp [exAggOut]⟩
      intro q hq
      simp only [exAggOut, Option.some.injEq] at hq
      subst hq
      simp [OnOffParams.EffFits, EffDict.Series]
    · exact ⟨by simp [exAggLoad, EffDict.Series], by simp [exAggLoad], by simp [exAggLoad]⟩
  · simp [exAggSystem]

theorem exAgg_aggregates {p : AggParams} {o : AggOut} (h : aggregatedModel exAggSys exAggSystem p exCluster [] = .ok o) {x : Var}
    (hx : ∃ m, MTree.Within m ((o.comps[0]?.map CompOut.tree).getD (.node [] [] [])) ∧ x ∈ m.vars) (hl : 1 < x.length)
    (hp : p.fixNonBinary = true ∨ x.isBinary = true) : o.Aggregates exAggSystem p [] x := by
  obtain ⟨hc, _⟩ := aggregated_inv h
  cases ho : o.comps[0]? with
  | none =>
    have := hc.length_eq
    rw [List.getElem?_eq_none_iff] at ho
    simp [exAggSystem] at this
    omega
  | some co =>
    rw [ho] at hx
    obtain ⟨m, hm, hxm⟩ := hx
    exact ⟨0, _, co, m, rfl, ho, .inl rfl, by rintro ⟨st, e⟩; simp at e, hm, hxm, hl, hp⟩

/-- A value of a variable of the first component that is aggregated (checked by evaluation). -/
def exFirst (r : Except Err AggOut) (l : String) : Bool :=
  match r with
  | .ok o => ((o.comps[0]?.map CompOut.tree).getD (.node [] [] [])).allVars.any fun x => x.label = l && x.length = 9
  | .error _ => false

theorem exFirst_ok {p : AggParams} {o : AggOut} (h : aggregatedModel exAggSys exAggSystem p exCluster [] = .ok o) {l : String}
    (hl : exFirst (aggregatedModel exAggSys exAggSystem p exCluster []) l = true) (hp : p.fixNonBinary = true) :
    ∃ x, o.Aggregates exAggSystem p [] x ∧ x.label = l := by
  rw [h] at hl
  simp only [exFirst, List.any_eq_true, Bool.and_eq_true, decide_eq_true_eq] at hl
  obtain ⟨x, hx, e, hn⟩ := hl
  exact ⟨x, exAgg_aggregates h ((mem_allVars _ _).1 hx) (by omega) (.inl hp), e⟩

def exFirstB (r : Except Err AggOut) (l : String) : Bool :=
  match r with
  | .ok o => ((o.comps[0]?.map CompOut.tree).getD (.node [] [] [])).allVars.any fun x => x.label = l && x.length = 9 && x.isBinary
  | .error _ => false

theorem exFirstB_ok {p : AggParams} {o : AggOut} (h : aggregatedModel exAggSys exAggSystem p exCluster [] = .ok o) {l : String}
    (hl : exFirstB (aggregatedModel exAggSys exAggSystem p exCluster []) l = true) :
    ∃ x, o.Aggregates exAggSystem p [] x ∧ x.isBinary = true ∧ x.label = l := by
  rw [h] at hl
  simp only [exFirstB, List.any_eq_true, Bool.and_eq_true, decide_eq_true_eq] at hl
  obtain ⟨x, hx, ⟨e, hn⟩, hb⟩ := hl
  exact ⟨x, exAgg_aggregates h ((mem_allVars _ _).1 hx) (by omega) (.inr hb), hb, e⟩

/-- The hypotheses of `C49_partial` and `C49_flows` are met: the flow rate of the generator, second step of the first two periods. -/
example : ∃ o, aggregatedModel exAggSys exAggSystem exTied exCluster [] = .ok o ∧ o.solver.Solves exTiedSol ∧
    ∃ x, o.Aggregates exAggSystem exTied [] x ∧ exCluster.SamePlace 1 4 ∧ exTiedSol x.label 1 = exTiedSol x.label 4 ∧ exTiedSol x.label 4 = 5 := by
  obtain ⟨o, h, hs⟩ := exTied_ok
  obtain ⟨x, hx, e⟩ := exFirst_ok h (l := "Gen__Q_flow_rate") (by decide +kernel) rfl
  have := C49_partial h exAgg_nodup hs hx (.inl (le_refl _)) 0 1 0 1 rfl rfl (by decide) (by decide) (by decide) (by decide)
  refine ⟨o, h, hs, x, hx, ⟨0, 1, 0, 1, rfl, rfl, by decide, by decide, rfl, rfl, by decide, by decide⟩, this, ?_⟩
  rw [e]; decide +kernel

/-- The first steps of the periods of a cluster may differ: the code leaves them out of the ties. -/
theorem C49_first_wrong : ∃ (sys : Sys) (s : System) (p : AggParams) (cl : ClusterData) (o : AggOut) (σ : Assignment) (x : Var),
    aggregatedModel sys s p cl [] = .ok o ∧ o.solver.Solves σ ∧ p.percentage = 0 ∧ p.fixNonBinary = true ∧ o.Aggregates s p [] x ∧
      cl.order[0]? = cl.order[1]? ∧ σ x.label (0 * cl.len + 0) ≠ σ x.label (1 * cl.len + 0) := by
  obtain ⟨o, h, hs⟩ := exTied_ok
  obtain ⟨x, hx, e⟩ := exFirst_ok h (l := "Gen__Q_flow_rate") (by decide +kernel) rfl
  refine ⟨_, _, _, _, o, _, x, h, hs, rfl, rfl, hx, rfl, ?_⟩
  rw [e]; decide +kernel

/-- The hypotheses of C50 are met; two deviations occur. -/
example : ∃ o, aggregatedModel exAggSys exAggSystem exFree exCluster [] = .ok o ∧ o.solver.Solves exFreeSol ∧
    ∃ x, o.Aggregates exAggSystem exFree [] x ∧ x.isBinary = true ∧ (exCluster.deviations exFreeSol x.label).card = 2 := by
  obtain ⟨o, h, hs⟩ := exFree_ok
  obtain ⟨x, hx, hb, e⟩ := exFirstB_ok h (l := "Gen__Q__OnOff_on") (by decide +kernel)
  refine ⟨o, h, hs, x, hx, hb, ?_⟩
  rw [e]; decide +kernel

/-- The documentation of the parameter promises the percentage within each period; the code bounds the number over all periods
together: here 50 % are allowed and two of the three steps of one period deviate. -/
theorem C50_per_period_wrong : ∃ (sys : Sys) (s : System) (p : AggParams) (cl : ClusterData) (o : AggOut) (σ : Assignment) (x : Var) (k : Nat),
    aggregatedModel sys s p cl [] = .ok o ∧ o.solver.Solves σ ∧ o.Aggregates s p [] x ∧ x.isBinary = true ∧
      p.percentage / 100 * cl.len < (((cl.deviations σ x.label).filter fun b => b / cl.len = k).card : ℚ) := by
  obtain ⟨o, h, hs⟩ := exFree_ok
  obtain ⟨x, hx, hb, e⟩ := exFirstB_ok h (l := "Gen__Q__OnOff_on") (by decide +kernel)
  refine ⟨_, _, _, _, o, _, x, 1, h, hs, hx, hb, ?_⟩
  rw [e]; decide +kernel

/-- The hypotheses of C66 are met: two deviations of `on`, one of `switchOn`, at 5 each. -/
example : exAggSys.Valid ∧ exAggSys.n ≠ 0 ∧ exAggSystem.Fits exAggSys.n ∧ (exAggSystem.comps.map Comp.label).Nodup ∧ exCluster.keys.Nodup ∧
    exFreeSol "Effects__penalty_penalty_sum" 0 = 15 :=
  ⟨exAggSys_valid, by decide, exAgg_fits, exAgg_nodup, by decide, by decide +kernel⟩

/-- The hypotheses of `C49_iff` are met, and the equivalence holds with both sides true. -/
example : ∃ o, aggregatedModel exAggSys exAggSystem exTied exCluster [] = .ok o ∧ exCluster.total ≤ exAggSys.n ∧
    exTied.percentage ≤ 0 ∧ o.solver.Solves exTiedSol := by
  obtain ⟨o, h, hs⟩ := exTied_ok
  exact ⟨o, h, by decide, le_refl _, hs⟩

/-- The hypotheses of `C50_complete` are met by a solution. -/
example : ∃ o, aggregatedModel exAggSys exAggSystem exFree exCluster [] = .ok o ∧ exCluster.total ≤ exAggSys.n ∧
    o.solver.Solves exFreeSol ∧ 0 < exFree.percentage := by
  obtain ⟨o, h, hs⟩ := exFree_ok
  exact ⟨o, h, by decide, hs, by norm_num [exFree]⟩

end Flix
