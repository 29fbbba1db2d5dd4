import Verif.Lemmas.Frame
import Verif.Spec.Account
import Verif.Props.EffectHistory
import Verif.Props.Bus
import Verif.Props.Closed

/-!
# C71, C72: bookkeeping and feasibility
-/

namespace Flix

theorem share_value_congr {c : Share} {σ τ : Assignment} (h : ∀ x, c.var = some x → σ x.label = τ x.label) (t : Nat) : c.value σ t = c.value τ t := by
  unfold Share.value
  cases hc : c.var with
  | none => rfl
  | some x => simp only [h x hc]

/-- Values for the variables of the collection that respect everything it says. -/
theorem coll_extend {sys : Sys} (hv : sys.Valid) (hn : sys.n ≠ 0) {es : List EffectData} {calls : List ShareCall} {o : CollOut}
    (h : collectionModel sys es calls = .ok o) (hf : ∀ e ∈ es, e.Fits sys.n) (hw : ∀ c ∈ calls, c.WellFormed sys.n)
    (hnd : o.tree.labels.Nodup) {σ : Assignment} (hcalls : ∀ c ∈ calls, ∀ x, c.var = some x → x.label ∉ o.tree.labels) {T : Totals}
    (hb : T.Balanced es sys.n (fun l t => direct σ es calls .operation l t) (fun l => direct σ es calls .invest l 0)) (ha : ∀ e ∈ es, T.Allowed sys e) :
    ∃ σ' : Assignment, o.tree.Solves σ' ∧ (∀ l, l ∉ o.tree.labels → σ' l = σ l) ∧
      ∀ e ∈ es, σ' (opTSL e.label) = T.op e.label ∧ σ' (invSumL e.label) 0 = T.inv e.label := by
  obtain ⟨hsh, _, _, _, hiff⟩ := collection_iff hv hn h hf hw
  let pen : ℚ := ((penaltyShares calls).map fun c => c.value σ 0).sum
  let pairs := collPairs es o.effects calls T.inv (T.opSum sys.n) (fun l => T.opSum sys.n l + T.inv l) T.op pen
  have hkeys : ∀ w, (pairs w).map Prod.fst = o.tree.labels := fun w => coll_labels hv h hf _ _ _ _ _ w
  let τ := assignAll σ (pairs fun _ _ => 0)
  let σ' := assignAll σ (pairs fun c t => c.value τ t)
  have hout : ∀ w l, l ∉ o.tree.labels → assignAll σ (pairs w) l = σ l := fun w l hl => assignAll_other (by rw [hkeys]; exact hl)
  have hget : ∀ w l f, (l, f) ∈ pairs w → assignAll σ (pairs w) l = f := fun w l f hm => assignAll_mem (by rw [hkeys]; exact hnd) hm
  have memE : ∀ w e, e ∈ es → ∀ q, q ∈ ((invSumL e.label, fun _ => T.inv e.label) :: ((invShares es o.effects calls e.label).map fun c => (shareLabel e.label c.name, w c)) ++
    ((opSumL e.label, fun _ => T.opSum sys.n e.label) :: (opTSL e.label, T.op e.label) ::
      ((opShares es o.effects calls e.label).map fun c => (shareLabel e.label c.name, w c)) ++
    [(allSumL e.label, fun _ => T.opSum sys.n e.label + T.inv e.label), (shareLabel e.label "operation", fun _ => T.opSum sys.n e.label),
      (shareLabel e.label "invest", fun _ => T.inv e.label)]) : List (String × (Nat → ℚ))) → q ∈ pairs w := by
    intro w e he q hq
    exact List.mem_append_left _ (List.mem_flatMap.2 ⟨e, he, hq⟩)
  have gInv : ∀ w e, e ∈ es → assignAll σ (pairs w) (invSumL e.label) = fun _ => T.inv e.label :=
    fun w e he => hget w _ _ (memE w e he _ (by simp))
  have gOp : ∀ w e, e ∈ es → assignAll σ (pairs w) (opTSL e.label) = T.op e.label :=
    fun w e he => hget w _ _ (memE w e he _ (by simp))
  have gSum : ∀ w e, e ∈ es → assignAll σ (pairs w) (opSumL e.label) = fun _ => T.opSum sys.n e.label :=
    fun w e he => hget w _ _ (memE w e he _ (by simp))
  have gAll : ∀ w e, e ∈ es → assignAll σ (pairs w) (allSumL e.label) = fun _ => T.opSum sys.n e.label + T.inv e.label :=
    fun w e he => hget w _ _ (memE w e he _ (by simp))
  have gA1 : ∀ w e, e ∈ es → assignAll σ (pairs w) (shareLabel e.label "operation") = fun _ => T.opSum sys.n e.label :=
    fun w e he => hget w _ _ (memE w e he _ (by simp))
  have gA2 : ∀ w e, e ∈ es → assignAll σ (pairs w) (shareLabel e.label "invest") = fun _ => T.inv e.label :=
    fun w e he => hget w _ _ (memE w e he _ (by simp))
  have gShI : ∀ w e, e ∈ es → ∀ c ∈ invShares es o.effects calls e.label, assignAll σ (pairs w) (shareLabel e.label c.name) = w c :=
    fun w e he c hc => hget w _ _ (memE w e he _ (by
      simp only [List.cons_append, List.mem_cons, List.mem_append]
      exact Or.inr (Or.inl (List.mem_map.2 ⟨c, hc, rfl⟩))))
  have gShO : ∀ w e, e ∈ es → ∀ c ∈ opShares es o.effects calls e.label, assignAll σ (pairs w) (shareLabel e.label c.name) = w c :=
    fun w e he c hc => hget w _ _ (memE w e he _ (by
      simp only [List.cons_append, List.mem_cons, List.mem_append]
      exact Or.inr (Or.inr (Or.inr (Or.inr (Or.inl (List.mem_map.2 ⟨c, hc, rfl⟩)))))))
  have gPen : ∀ w, assignAll σ (pairs w) penaltyL = fun _ => pen :=
    fun w => hget w _ _ (List.mem_append_right _ (by simp))
  have gShP : ∀ w, ∀ c ∈ penaltyShares calls, assignAll σ (pairs w) (shareLabel "Effects" c.name) = w c :=
    fun w c hc => hget w _ _ (List.mem_append_right _ (List.mem_cons_of_mem _ (List.mem_map.2 ⟨c, hc, rfl⟩)))
  -- shares of elements do not see the collection
  have vcall : ∀ w, ∀ c ∈ calls, ∀ t, c.share.value (assignAll σ (pairs w)) t = c.share.value σ t := by
    intro w c hc t
    exact share_value_congr (fun x hx => hout w _ (hcalls c hc x hx)) t
  have vdir : ∀ w tg l t, direct (assignAll σ (pairs w)) es calls tg l t = direct σ es calls tg l t := by
    intro w tg l t
    unfold direct
    congr 1
    exact List.map_congr_left fun c hc => vcall w c (List.mem_filter.1 hc).1 t
  have vO : ∀ e ∈ es, ∀ c ∈ opShares es o.effects calls e.label, ∀ t, c.value σ' t = c.value τ t := by
    intro e he c hc t
    refine share_value_congr (fun x hx => ?_) t
    unfold opShares at hc
    rcases List.mem_append.1 hc with hc | hc
    · unfold othersOp at hc
      obtain ⟨l', hl', hc⟩ := List.mem_flatten.1 hc
      obtain ⟨ev', hev', rfl⟩ := List.mem_map.1 hl'
      obtain ⟨q, hq, rfl⟩ := List.mem_map.1 hc
      obtain ⟨e', he', hs⟩ := forall₂_mem_right hsh hev'
      obtain ⟨ts, t1, _, t3⟩ := hs.opTS
      simp only [opShare, t1, Option.some.injEq] at hx
      subst hx
      rw [t3]
      exact (gOp _ e' he').trans (gOp _ e' he').symm
    · obtain ⟨c', hc', rfl⟩ := List.mem_map.1 hc
      have := hcalls c' (List.mem_filter.1 hc').1 x hx
      exact (hout _ _ this).trans (hout _ _ this).symm
  have vI : ∀ e ∈ es, ∀ c ∈ invShares es o.effects calls e.label, ∀ t, c.value σ' t = c.value τ t := by
    intro e he c hc t
    refine share_value_congr (fun x hx => ?_) t
    unfold invShares at hc
    rcases List.mem_append.1 hc with hc | hc
    · unfold othersInv at hc
      obtain ⟨l', hl', hc⟩ := List.mem_flatten.1 hc
      obtain ⟨ev', hev', rfl⟩ := List.mem_map.1 hl'
      obtain ⟨q, hq, rfl⟩ := List.mem_map.1 hc
      obtain ⟨e', he', hs⟩ := forall₂_mem_right hsh hev'
      simp only [invShare, Option.some.injEq] at hx
      subst hx
      rw [hs.invSum]
      exact (gInv _ e' he').trans (gInv _ e' he').symm
    · obtain ⟨c', hc', rfl⟩ := List.mem_map.1 hc
      have := hcalls c' (List.mem_filter.1 hc').1 x hx
      exact (hout _ _ this).trans (hout _ _ this).symm
  have vP : ∀ w, ∀ c ∈ penaltyShares calls, ∀ t, c.value (assignAll σ (pairs w)) t = c.value σ t := by
    intro w c hc t
    obtain ⟨c', hc', rfl⟩ := List.mem_map.1 hc
    exact vcall w c' (List.mem_filter.1 hc').1 t
  refine ⟨σ', (hiff σ').2 ?_, hout _, fun e he => ⟨gOp _ e he, congrFun (gInv _ e he) 0⟩⟩
  have hothersOp : ∀ l t, fromOthersOp σ' es l t = (es.map fun o => ((o.shareOperation.filter fun q => q.1 = l).map fun q => q.2.at t * T.op o.label t).sum).sum := by
    intro l t
    unfold fromOthersOp
    congr 1
    refine List.map_congr_left fun e' he' => ?_
    simp only [show σ' (opTSL e'.label) = T.op e'.label from gOp _ e' he']
  have hothersInv : ∀ l, fromOthersInv σ' es l = (es.map fun o => ((o.shareInvest.filter fun q => q.1 = l).map fun q => q.2.at 0 * T.inv o.label).sum).sum := by
    intro l
    unfold fromOthersInv
    congr 1
    refine List.map_congr_left fun e' he' => ?_
    simp only [show σ' (invSumL e'.label) = fun _ => T.inv e'.label from gInv _ e' he']
  refine ⟨?_, ?_, ?_, ?_, ?_, ?_⟩
  · intro e he
    have e1 : σ' (opTSL e.label) = T.op e.label := gOp _ e he
    have e2 : σ' (opSumL e.label) = fun _ => T.opSum sys.n e.label := gSum _ e he
    have e3 : σ' (invSumL e.label) = fun _ => T.inv e.label := gInv _ e he
    have e4 : σ' (allSumL e.label) = fun _ => T.opSum sys.n e.label + T.inv e.label := gAll _ e he
    obtain ⟨b1, b2⟩ := hb e he
    have al := ha e he
    refine ⟨?_, ?_, ?_, ?_, ?_, ?_, ?_⟩
    · intro t ht
      rw [e1, b1 t ht, hothersOp, vdir]
    · rw [e1, e2]; rfl
    · rw [e3, hothersInv, vdir]; exact b2
    · rw [e4, e2, e3]
    · rw [e1, e2]
      exact ⟨al.minOperation, al.maxOperation, by rintro x hx m hm t ht; cases hx; exact al.minPerHour m hm t ht,
        by rintro x hx m hm t ht; cases hx; exact al.maxPerHour m hm t ht⟩
    · rw [e3]
      exact ⟨al.minInvest, al.maxInvest, by simp, by simp⟩
    · rw [e4]
      exact ⟨al.minTotal, al.maxTotal, by simp, by simp⟩
  · rw [show σ' penaltyL = fun _ => pen from gPen _]
    show ((penaltyShares calls).map fun c => c.value σ 0).sum = ((penaltyShares calls).map fun c => c.value σ' 0).sum
    congr 1
    exact List.map_congr_left fun c hc => (vP _ c hc 0).symm
  · intro e he c hc t _
    rw [vO e he c hc t]
    exact congrFun (gShO (fun c t => c.value τ t) e he c hc) t
  · intro e he c hc t _
    rw [vI e he c hc t]
    exact congrFun (gShI (fun c t => c.value τ t) e he c hc) t
  · intro e he
    rw [show σ' (opSumL e.label) = fun _ => T.opSum sys.n e.label from gSum _ e he, show σ' (invSumL e.label) = fun _ => T.inv e.label from gInv _ e he]
    exact ⟨congrFun (gA1 (fun c t => c.value τ t) e he) 0, congrFun (gA2 (fun c t => c.value τ t) e he) 0⟩
  · intro c hc t _
    rw [show c.value σ' t = c.value τ t from (vP _ c hc t).trans (vP _ c hc t).symm]
    exact congrFun (gShP (fun c t => c.value τ t) c hc) t

variable {sys : Sys} {s : System} {o : SysOut}

/-- The labels of the collection, of the components and of the buses are all different. -/
theorem system_labels (h : systemModel sys s = .ok o) :
    (o.coll.tree.labels ++ (o.comps.map CompOut.tree ++ o.buses.map (·.tree)).flatMap MTree.labels).Nodup := by
  obtain ⟨p1, _, n1, _, _⟩ := collectModel_perm (system_inv h).2.2.2
  have := (p1.map Var.label).nodup_iff.1 n1
  have key : ∀ ss : List MTree, ((MTree.nodesAll ss).flatMap MTree.vars).map (·.label) = ss.flatMap MTree.labels := by
    intro ss
    induction ss with
    | nil => rfl
    | cons s ss ih => simp [MTree.nodesAll, MTree.labels, ih, List.flatMap_append]
  rw [key] at this
  simpa using this

theorem hasVar_labels {t : MTree} {x : Var} (h : t.HasVar x) : x.label ∈ t.labels := by
  obtain ⟨m, hm, hx⟩ := h
  exact List.mem_map_of_mem (List.mem_flatMap.2 ⟨m, (within_nodes m t).2 hm, hx⟩)

/-- A variable of a component or of a bus. -/
def SysOut.Physical (o : SysOut) (x : Var) : Prop := (∃ c ∈ o.comps, c.tree.HasVar x) ∨ ∃ b ∈ o.buses, b.tree.HasVar x

theorem physical_label (h : systemModel sys s = .ok o) {x : Var} (hx : o.Physical x) : x.label ∉ o.coll.tree.labels := by
  have hd := (List.nodup_append.1 (system_labels h)).2.2
  intro hc
  refine hd _ hc x.label ?_ rfl
  rw [List.mem_flatMap]
  rcases hx with ⟨c, hcm, hx⟩ | ⟨b, hbm, hx⟩
  · exact ⟨_, List.mem_append_left _ (List.mem_map_of_mem hcm), hasVar_labels hx⟩
  · exact ⟨_, List.mem_append_right _ (List.mem_map_of_mem hbm), hasVar_labels hx⟩

theorem physical_refs (h : systemModel sys s = .ok o) :
    (∀ c ∈ o.comps, c.tree.Vars o.Physical ∧ c.tree.Refs o.Physical) ∧ (∀ b ∈ o.buses, b.tree.Vars o.Physical ∧ b.tree.Refs o.Physical) ∧
    ∀ c ∈ o.calls, c.Refs o.Physical := by
  obtain ⟨h1, h2, h3, h4⟩ := system_inv h
  have vc : ∀ c ∈ o.comps, c.tree.Vars o.Physical := fun c hc m hm x hx => Or.inl ⟨c, hc, m, (within_nodes m _).1 hm, hx⟩
  have vb : ∀ b ∈ o.buses, b.tree.Vars o.Physical := fun b hb m hm x hx => Or.inr ⟨b, hb, m, (within_nodes m _).1 hm, hx⟩
  have kc : ∀ oc ∈ o.comps, oc.tree.Refs o.Physical ∧ (∀ c ∈ oc.shares, c.Refs o.Physical) ∧ (∀ q ∈ oc.flows, FlowRefs o.Physical q.2) := by
    intro oc hoc
    obtain ⟨c, _, hm⟩ := forall₂_mem_right h1 hoc
    exact model_refs hm (vc oc hoc)
  have kb : ∀ ob ∈ o.buses, ob.tree.Refs o.Physical ∧ ∀ c ∈ ob.shares, c.Refs o.Physical := by
    intro ob hob
    obtain ⟨b, _, hm⟩ := forall₂_mem_right h2 hob
    refine bus_refs hm (vb ob hob) ?_ ?_
    · exact busFlows_refs _ _ fun oc hoc q hq => ((kc oc hoc).2.2 q (List.mem_append_right _ hq)).1
    · exact busFlows_refs _ _ fun oc hoc q hq => ((kc oc hoc).2.2 q (List.mem_append_left _ hq)).1
  refine ⟨fun c hc => ⟨vc c hc, (kc c hc).1⟩, fun b hb => ⟨vb b hb, (kb b hb).1⟩, fun c hc => ?_⟩
  unfold SysOut.calls at hc
  rcases List.mem_append.1 hc with hc | hc
  · obtain ⟨l, hl, hc⟩ := List.mem_flatten.1 hc
    obtain ⟨oc, hoc, rfl⟩ := List.mem_map.1 hl
    exact (kc oc hoc).2.1 c hc
  · obtain ⟨l, hl, hc⟩ := List.mem_flatten.1 hc
    obtain ⟨ob, hob, rfl⟩ := List.mem_map.1 hl
    exact (kb ob hob).2 c hc

/-- Direct contributions of all components. -/
def System.opOf (sys : Sys) (s : System) (σ : Assignment) (l : String) (t : Nat) : ℚ := (s.comps.map fun c => c.operation sys.width σ s.effects l t).sum
def System.invOf (s : System) (σ : Assignment) (l : String) : ℚ := (s.comps.map fun c => c.investment σ s.effects l).sum

theorem direct_congr (h : systemModel sys s = .ok o) {σ τ : Assignment} (hst : ∀ x, o.Physical x → σ x.label = τ x.label) (tg : Target) (l : String) (t : Nat) :
    direct σ s.effects o.calls tg l t = direct τ s.effects o.calls tg l t := by
  unfold direct
  congr 1
  refine List.map_congr_left fun c hc => share_value_congr (fun x hx => hst x ?_) t
  exact (physical_refs h).2.2 c (List.mem_filter.1 hc).1 x hx

/-- **C71.**  The bookkeeping of effects never restricts the operation beyond the declared limits: values of the physical variables that respect
all components and buses can be completed to a solution exactly if there are totals that add up — direct contributions plus shares of other
effects — and keep the declared limits of the effects. -/
theorem C71 (hv : sys.Valid) (hn : sys.n ≠ 0) (hf : s.Fits sys.n) (h : systemModel sys s = .ok o) (σ : Assignment) :
    (∃ σ', o.solver.Solves σ' ∧ ∀ x, o.Physical x → σ' x.label = σ x.label) ↔
      (∀ c ∈ o.comps, c.tree.Solves σ) ∧ (∀ b ∈ o.buses, b.tree.Solves σ) ∧
      ∃ T : Totals, T.Balanced s.effects sys.n (s.opOf sys σ) (s.invOf σ) ∧ ∀ e ∈ s.effects, T.Allowed sys e := by
  obtain ⟨_, _, h3, h4⟩ := system_inv h
  obtain ⟨hw, d1, d2, _⟩ := system_calls hv hf h
  obtain ⟨r1, r2, r3⟩ := physical_refs h
  constructor
  · rintro ⟨σ', hs, hag⟩
    obtain ⟨s1, s2, s3⟩ := (system_solves h σ').1 hs
    refine ⟨fun c hc => solves_congr (r1 c hc).1 (r1 c hc).2 hag (s2 c hc), fun b hb => solves_congr (r2 b hb).1 (r2 b hb).2 hag (s3 b hb), ?_⟩
    have rows := ((collection_iff hv hn h3 hf.effects hw).2.2.2.2 σ').1 s1
    refine ⟨⟨fun l t => σ' (opTSL l) t, fun l => σ' (invSumL l) 0⟩, fun e he => ⟨fun t ht => ?_, ?_⟩, fun e he => ?_⟩
    · have := (rows.effect e he).opStep t ht
      rw [direct_congr h hag, d1 σ _ t ht] at this
      exact this
    · have := (rows.effect e he).inv
      rw [direct_congr h hag, d2 σ] at this
      exact this
    · have r := rows.effect e he
      have hsum : σ' (opSumL e.label) 0 = ∑ t ∈ Finset.range sys.n, σ' (opTSL e.label) t := r.opTotal
      have hall := r.all
      rw [hsum] at hall
      refine ⟨?_, ?_, r.invBounds.totalMin, r.invBounds.totalMax, ?_, ?_, r.opBounds.stepMin _ rfl, r.opBounds.stepMax _ rfl⟩
      · intro m hm; have := r.opBounds.totalMin m hm; rw [hsum] at this; exact this
      · intro m hm; have := r.opBounds.totalMax m hm; rw [hsum] at this; exact this
      · intro m hm; have := r.allBounds.totalMin m hm; rw [hall] at this; exact this
      · intro m hm; have := r.allBounds.totalMax m hm; rw [hall] at this; exact this
  · rintro ⟨s2, s3, T, hb, ha⟩
    have hb' : T.Balanced s.effects sys.n (fun l t => direct σ s.effects o.calls .operation l t) (fun l => direct σ s.effects o.calls .invest l 0) := by
      intro e he
      obtain ⟨b1, b2⟩ := hb e he
      refine ⟨fun t ht => ?_, ?_⟩
      · simp only [d1 σ _ t ht]; exact b1 t ht
      · simp only [d2 σ]; exact b2
    obtain ⟨σ', c1, c2, _⟩ := coll_extend hv hn h3 hf.effects hw (List.nodup_append.1 (system_labels h)).1
      (fun c hc x hx => physical_label h (r3 c hc x hx)) hb' ha
    have hag : ∀ x, o.Physical x → σ x.label = σ' x.label := fun x hx => (c2 _ (physical_label h hx)).symm
    refine ⟨σ', (system_solves h σ').2 ⟨c1, ?_, ?_⟩, fun x hx => (hag x hx).symm⟩
    · exact fun c hc => solves_congr (r1 c hc).1 (r1 c hc).2 hag (s2 c hc)
    · exact fun b hb => solves_congr (r2 b hb).1 (r2 b hb).2 hag (s3 b hb)

/-! ## Effects without limits -/

/-- No effect has a limit. -/
def System.Unlimited (s : System) : Prop := ∀ e ∈ s.effects, e.minOperation = none ∧ e.maxOperation = none ∧ e.minInvest = none ∧ e.maxInvest = none ∧
  e.minTotal = none ∧ e.maxTotal = none ∧ e.minOperationPerHour = none ∧ e.maxOperationPerHour = none

/-- **C71 (no limits).**  Without limits, and with shares between effects that do not run in circles, every operation that the components and
buses allow can be completed to a solution. -/
theorem C71_unlimited (hv : sys.Valid) (hn : sys.n ≠ 0) (hf : s.Fits sys.n) (h : systemModel sys s = .ok o) (hu : s.Unlimited) {rank : String → Nat}
    (hr1 : Ranked s.effects (·.shareOperation) rank) (hr2 : Ranked s.effects (·.shareInvest) rank) {σ : Assignment}
    (hc : ∀ c ∈ o.comps, c.tree.Solves σ) (hb : ∀ b ∈ o.buses, b.tree.Solves σ) :
    ∃ σ', o.solver.Solves σ' ∧ ∀ x, o.Physical x → σ' x.label = σ x.label := by
  rw [C71 hv hn hf h]
  refine ⟨hc, hb, ?_⟩
  choose x hx using fun t => ranked_exists hr1 (fun f => f.at t) (fun l => s.opOf sys σ l t)
  obtain ⟨y, hy⟩ := ranked_exists hr2 (fun f => f.at 0) (fun l => s.invOf σ l)
  refine ⟨⟨fun l t => x t l, y⟩, fun e he => ⟨fun t _ => hx t e he, hy e he⟩, fun e he => ?_⟩
  obtain ⟨u1, u2, u3, u4, u5, u6, u7, u8⟩ := hu e he
  exact ⟨by simp [u1], by simp [u2], by simp [u3], by simp [u4], by simp [u5], by simp [u6], by simp [u7], by simp [u8]⟩

/-! ## C72 -/

theorem hasVar_of_label {t : MTree} {l : String} (h : l ∈ t.labels) : ∃ x, t.HasVar x ∧ x.label = l := by
  obtain ⟨x, hx, rfl⟩ := List.mem_map.1 h
  obtain ⟨m, hm, hx⟩ := List.mem_flatMap.1 hx
  exact ⟨x, ⟨m, (within_nodes m t).1 hm, hx⟩, rfl⟩

/-- Models that only mention their own variables are solved together if each is solved alone. -/
theorem glue {ts : List MTree} (hn : (ts.flatMap MTree.labels).Nodup) (hr : ∀ t ∈ ts, t.Refs t.HasVar) (hs : ∀ t ∈ ts, ∃ σ : Assignment, t.Solves σ) :
    ∃ σ : Assignment, ∀ t ∈ ts, t.Solves σ := by
  induction ts with
  | nil => exact ⟨fun _ _ => 0, by simp⟩
  | cons t ts ih =>
    rw [List.flatMap_cons, List.nodup_append] at hn
    obtain ⟨σ, hσ⟩ := ih hn.2.1 (fun u hu => hr u (by simp [hu])) (fun u hu => hs u (by simp [hu]))
    obtain ⟨τ, hτ⟩ := hs t (by simp)
    refine ⟨fun l => if l ∈ t.labels then τ l else σ l, ?_⟩
    intro u hu
    rcases List.mem_cons.1 hu with rfl | hu
    · refine solves_congr (vars_hasVar _) (hr _ (by simp)) ?_ hτ
      intro x hx
      simp [hasVar_labels hx]
    · refine solves_congr (vars_hasVar _) (hr u (by simp [hu])) ?_ (hσ u hu)
      intro x hx
      have : x.label ∉ t.labels := fun hc => hn.2.2 _ hc x.label (List.mem_flatMap.2 ⟨u, hu, hasVar_labels hx⟩) rfl
      simp [this]

theorem bus_labels {b : BusData} {ins outs : List Var} {ob : BusOut} (h : busModel sys b ins outs = .ok ob) {ein eout : Var} (h1 : ob.excessInput = some ein)
    (h2 : ob.excessOutput = some eout) : ob.tree.labels = [ein.label, eout.label] := by
  unfold busModel at h
  cases hp : b.excessPenalty with
  | none => rw [hp] at h; cases h; simp at h1
  | some pen =>
    rw [hp] at h
    simp only at h
    peel h with f, hf
    peel h with a, ha
    peel h with c, hc
    simp only [except_pure, Except.ok.injEq] at h
    subst h
    simp only [Option.some.injEq] at h1 h2
    subst h1 h2
    simp [labels_node]

/-- Buses with excess variables can be balanced whatever the flows are. -/
theorem balance_buses (hv : sys.Valid) {comps : List CompOut} {ins outs : String → List Var} {bs : List BusData} {obs : List BusOut}
    (hb : List.Forall₂ (fun b ob => busModel sys b (ins b.label) (outs b.label) = .ok ob) bs obs)
    (hp : ∀ b ∈ bs, ∃ pen, b.excessPenalty = some pen ∧ pen.Fits sys.n) (hin : ∀ l, ∀ x ∈ ins l, x.length = sys.n) (hout : ∀ l, ∀ x ∈ outs l, x.length = sys.n)
    (hio : ∀ l, ∀ x ∈ ins l ++ outs l, ∃ c ∈ comps, c.tree.HasVar x)
    (hn : ((comps.map CompOut.tree).flatMap MTree.labels ++ (obs.map (·.tree)).flatMap MTree.labels).Nodup) (σ : Assignment) :
    ∃ σ' : Assignment, (∀ ob ∈ obs, ob.tree.Solves σ') ∧ ∀ l, l ∉ (obs.map (·.tree)).flatMap MTree.labels → σ' l = σ l := by
  induction hb with
  | nil => exact ⟨σ, by simp, fun _ _ => rfl⟩
  | cons hd hbs ih =>
    rename_i b ob bs obs
    have hsub : ((comps.map CompOut.tree).flatMap MTree.labels ++ (obs.map (·.tree)).flatMap MTree.labels).Nodup := by
      refine hn.sublist ?_
      simp only [List.map_cons, List.flatMap_cons]
      exact List.Sublist.append (List.Sublist.refl _) (List.sublist_append_right _ _)
    obtain ⟨σ1, h1, h2⟩ := ih (fun b hb => hp b (by simp [hb])) hsub
    obtain ⟨pen, hpen, hpf⟩ := hp b (by simp)
    obtain ⟨ein, eout, f, x1, x2, l1, l2, _⟩ := bus_some hv hd hpen hpf (hin _) (hout _)
    have hvars : ob.tree.labels = [excessInL b.label, excessOutL b.label] := by
      rw [← l1, ← l2]
      exact bus_labels hd x1 x2
    rw [List.map_cons, List.flatMap_cons, hvars, List.nodup_append] at hn
    have hcomp : ∀ x : Var, (∃ c ∈ comps, c.tree.HasVar x) → x.label ≠ excessInL b.label ∧ x.label ≠ excessOutL b.label := by
      rintro x ⟨c, hc, hx⟩
      have hm : x.label ∈ (comps.map CompOut.tree).flatMap MTree.labels := List.mem_flatMap.2 ⟨_, List.mem_map_of_mem hc, hasVar_labels hx⟩
      exact ⟨fun e => hn.2.2 _ hm _ (by simp) e, fun e => hn.2.2 _ hm _ (by simp) e⟩
    obtain ⟨σ', g1, g2, _⟩ := C28_solvable hv hd hpen hpf (hin _) (hout _) (fun x hx => hcomp x (hio _ x hx)) σ1
    refine ⟨σ', ?_, ?_⟩
    · intro ob' hob'
      rcases List.mem_cons.1 hob' with rfl | hob'
      · exact g1
      · obtain ⟨b', _, hm'⟩ := forall₂_mem_right hbs hob'
        have hr := bus_refs (P := fun x => ob'.tree.HasVar x ∨ ∃ c ∈ comps, c.tree.HasVar x) hm' (fun m hm x hx => Or.inl (vars_hasVar _ m hm x hx))
          (fun x hx => Or.inr (hio _ x (List.mem_append_left _ hx))) (fun x hx => Or.inr (hio _ x (List.mem_append_right _ hx)))
        refine solves_congr (fun m hm x hx => Or.inl (vars_hasVar _ m hm x hx)) hr.1 ?_ (h1 ob' hob')
        intro x hx
        have : x.label ≠ excessInL b.label ∧ x.label ≠ excessOutL b.label := by
          rcases hx with hx | hx
          · have hm : x.label ∈ (obs.map (·.tree)).flatMap MTree.labels := List.mem_flatMap.2 ⟨_, List.mem_map_of_mem hob', hasVar_labels hx⟩
            have hd := (List.nodup_append.1 hn.2.1).2.2
            exact ⟨fun e => hd _ (by simp) _ hm e.symm, fun e => hd _ (by simp) _ hm e.symm⟩
          · exact hcomp x hx
        exact (g2 _ this.1 this.2).symm
    · intro l hl
      simp only [List.map_cons, List.flatMap_cons, hvars, List.mem_append, List.mem_cons, List.not_mem_nil, or_false, not_or] at hl
      rw [g2 l hl.1.1 hl.1.2, h2 l hl.2]

/-- **C72.**  If every bus may have excess, no effect is limited and shares between effects do not run in circles, a system can be solved as soon
as each of its components can be solved alone. -/
theorem C72 (hv : sys.Valid) (hn : sys.n ≠ 0) (hf : s.Fits sys.n) (h : systemModel sys s = .ok o) (hu : s.Unlimited) {rank : String → Nat}
    (hr1 : Ranked s.effects (·.shareOperation) rank) (hr2 : Ranked s.effects (·.shareInvest) rank)
    (hx : ∀ b ∈ s.buses, b.excessPenalty ≠ none) (hc : ∀ c ∈ o.comps, ∃ σ : Assignment, c.tree.Solves σ) : ∃ σ, o.solver.Solves σ := by
  obtain ⟨h1, h2, _, _⟩ := system_inv h
  have hl := (List.nodup_append.1 (system_labels h)).2.1
  rw [List.flatMap_append] at hl
  have hr : ∀ t ∈ o.comps.map CompOut.tree, t.Refs t.HasVar := by
    intro t ht
    obtain ⟨oc, hoc, rfl⟩ := List.mem_map.1 ht
    obtain ⟨c, _, hm⟩ := forall₂_mem_right h1 hoc
    exact (model_refs hm (vars_hasVar _)).1
  obtain ⟨σ, hσ⟩ := glue (List.nodup_append.1 hl).1 hr (by
    intro t ht
    obtain ⟨oc, hoc, rfl⟩ := List.mem_map.1 ht
    exact hc oc hoc)
  have kc : ∀ oc ∈ o.comps, ∀ q ∈ oc.flows, oc.tree.HasVar q.2.flowRate := by
    intro oc hoc q hq
    obtain ⟨c, _, hm⟩ := forall₂_mem_right h1 hoc
    exact ((model_refs hm (vars_hasVar _)).2.2 q hq).1
  obtain ⟨σ', g1, g2⟩ := balance_buses hv (comps := o.comps) h2 (fun b hb => by
      cases hp : b.excessPenalty with
      | none => exact absurd hp (hx b hb)
      | some pen => exact ⟨pen, rfl, hf.buses b hb pen hp⟩)
    (fun l => (busFlows_all (σ := fun _ _ => 0) (n := sys.n) (t := 0) Comp.outputs (·.outputs) (forall₂_imp' h1 fun c _ oc h => (model_flowOf h).2) (bus := l)).2)
    (fun l => (busFlows_all (σ := fun _ _ => 0) (n := sys.n) (t := 0) Comp.inputs (·.inputs) (forall₂_imp' h1 fun c _ oc h => (model_flowOf h).1) (bus := l)).2)
    (by
      intro l x hx
      rcases List.mem_append.1 hx with hx | hx
      · exact busFlows_refs (P := fun x => ∃ c ∈ o.comps, c.tree.HasVar x) _ _ (fun oc hoc q hq => ⟨oc, hoc, kc oc hoc q (List.mem_append_right _ hq)⟩) x hx
      · exact busFlows_refs (P := fun x => ∃ c ∈ o.comps, c.tree.HasVar x) _ _ (fun oc hoc q hq => ⟨oc, hoc, kc oc hoc q (List.mem_append_left _ hq)⟩) x hx) hl σ
  have hcomps : ∀ c ∈ o.comps, c.tree.Solves σ' := by
    intro c hcm
    refine solves_congr (vars_hasVar _) (hr _ (List.mem_map_of_mem hcm)) ?_ (hσ _ (List.mem_map_of_mem hcm))
    intro x hx
    refine (g2 _ fun hm => ?_).symm
    exact (List.nodup_append.1 hl).2.2 _ (List.mem_flatMap.2 ⟨_, List.mem_map_of_mem hcm, hasVar_labels hx⟩) _ hm rfl
  obtain ⟨τ, ht, _⟩ := C71_unlimited hv hn hf h hu hr1 hr2 hcomps g1
  exact ⟨τ, ht⟩

/-- **C72 (created effects).**  The shares of effects made by constructor calls never run in circles. -/
theorem C72_created (hv : sys.Valid) (hn : sys.n ≠ 0) (hf : s.Fits sys.n) (h : systemModel sys s = .ok o) (hu : s.Unlimited) (cs : List EffCall)
    (he : s.effects = (({} : EffState).run cs).effects)
    (hclosed : ∀ q ∈ (({} : EffState).run cs).coll, ∀ o, (({} : EffState).run cs).heap[q.2]? = some o →
      ∀ r ∈ o.shareOp ++ o.shareInv, r.1 ∈ (({} : EffState).run cs).coll.map (·.2))
    (hx : ∀ b ∈ s.buses, b.excessPenalty ≠ none) (hc : ∀ c ∈ o.comps, ∃ σ : Assignment, c.tree.Solves σ) : ∃ σ, o.solver.Solves σ := by
  obtain ⟨rank, r1, r2⟩ := history_ranked cs hclosed
  rw [← he] at r1 r2
  exact C72 hv hn hf h hu r1 r2 hx hc

/-! ## Examples -/

/-- Both sides of C71 hold for the example system, whose effects have limits. -/
example : ∃ o, systemModel exSys exSystem = .ok o ∧ (∃ σ', o.solver.Solves σ' ∧ ∀ x, o.Physical x → σ' x.label = exSystemSol x.label) ∧
    ∃ T : Totals, T.Balanced exSystem.effects exSys.n (exSystem.opOf exSys exSystemSol) (exSystem.invOf exSystemSol) ∧ ∀ e ∈ exSystem.effects, T.Allowed exSys e := by
  obtain ⟨o, h, hs⟩ := exSystem_ok
  have hl : ∃ σ', o.solver.Solves σ' ∧ ∀ x, o.Physical x → σ' x.label = exSystemSol x.label := ⟨_, hs, fun _ _ => rfl⟩
  exact ⟨o, h, hl, ((C71 exSys_valid (by decide) exSystem_fits h exSystemSol).1 hl).2.2⟩

/-- The example without limits and with excess at both buses. -/
def exOpen : System :=
  { exSystem with
    effects := [{ label := "costs", isStandard := true, isObjective := true }, { label := "co2", shareOperation := [("costs", .s (1 / 5))] }]
    buses := [{ label := "gas", excessPenalty := some (.s 1) }, { label := "heat", excessPenalty := some (.s 100) }] }

def exOpenRank : String → Nat := fun l => if l = "co2" then 1 else 0

/-- The hypotheses of C72 are met. -/
example : exOpen.Fits exSys.n ∧ exOpen.Unlimited ∧ Ranked exOpen.effects (·.shareOperation) exOpenRank ∧ Ranked exOpen.effects (·.shareInvest) exOpenRank ∧
    (∀ b ∈ exOpen.buses, b.excessPenalty ≠ none) ∧ ∃ o, systemModel exSys exOpen = .ok o ∧ ∀ c ∈ o.comps, ∃ σ : Assignment, c.tree.Solves σ := by
  refine ⟨⟨?_, exSystem_fits.comps, ?_⟩, ?_, ?_, ?_, ?_, ?_⟩
  · intro e he
    simp only [exOpen, List.mem_cons, List.not_mem_nil, or_false] at he
    rcases he with rfl | rfl <;> refine ⟨?_, ?_, ?_, ?_⟩ <;> simp [Num.Fits, Num.isScalar]
  · simp only [exOpen, List.forall_mem_cons, List.not_mem_nil, false_imp_iff, implies_true, and_true]
    refine ⟨?_, ?_⟩ <;>
    · intro pen hp
      simp only [Option.some.injEq] at hp
      subst hp
      exact Or.inl rfl
  · intro e he
    simp only [exOpen, List.mem_cons, List.not_mem_nil, or_false] at he
    rcases he with rfl | rfl <;> simp
  · intro e he q hq
    simp only [exOpen, List.mem_cons, List.not_mem_nil, or_false] at he
    rcases he with rfl | rfl
    · simp at hq
    · simp only [List.mem_cons, List.not_mem_nil, or_false] at hq
      subst hq
      simp [exOpenRank]
  · intro e he q hq
    simp only [exOpen, List.mem_cons, List.not_mem_nil, or_false] at he
    rcases he with rfl | rfl <;> simp at hq
  · simp [exOpen]
  · obtain ⟨o, h, hp⟩ := of_okB (p := fun o : SysOut => o.comps.all fun c => c.tree.solvesB exSystemSol) (r := systemModel exSys exOpen) (by decide +kernel)
    exact ⟨o, h, fun c hc => ⟨_, (MTree.solvesB_iff _).1 (List.all_eq_true.1 hp c hc)⟩⟩

end Flix
