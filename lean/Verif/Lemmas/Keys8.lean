import Verif.Lemmas.Keys7
import Verif.Props.System

namespace Flix

theorem KL.forall₂ {κ α γ β : Type} {f : κ → β} {P : α → κ → Prop} {g : γ → List β} {l : List α} {m : List γ}
    (h : List.Forall₂ (fun a c => KL f (P a) (g c)) l m) (hd : l.Pairwise fun a b => ∀ k, P a k → P b k → False) :
    KL f (fun k => ∃ a ∈ l, P a k) (m.flatMap g) := by
  induction h with
  | nil => exact KL.nil
  | cons hh _ ih =>
    rw [List.flatMap_cons]
    rw [List.pairwise_cons] at hd
    refine KL.append hh (ih hd.2) ?_ (fun k hk => ⟨_, by simp, hk⟩) (fun k ⟨b, hb, hk⟩ => ⟨b, by simp [hb], hk⟩)
    rintro k hk ⟨b, hb, hk'⟩
    exact hd.1 b hb k hk hk'

/-! ## The names of the shares of every effect -/

/-- What the calls to the collection are: shares of components and their flows, and the excess of buses. -/
def SysCall (s : System) (k : CallKey) : Prop :=
  (∃ c ∈ s.comps, CallIn s.effects c.label (c.flows.map (·.label)) shareSufs k) ∨ ∃ b ∈ s.buses, ∃ x ∈ excessSufs, k = (.penalty, "", .pen b.label x)

/-- The label of a component or of one of its flows. -/
def Own (c : String) (fl : List String) (l : String) : Prop := l = c ∨ ∃ f ∈ fl, l = flowFull c f

theorem name_ne_flowFull {a c f : String} (ha : IsName a) : a ≠ flowFull c f := by
  intro h
  have := ha.good
  have hl : a.toList = c.toList ++ '_' :: '_' :: f.toList := by
    rw [h]; unfold flowFull
    rw [String.toList_append, String.toList_append, show ("__" : String).toList = ['_', '_'] by decide +kernel]
    simp
  exact this.inner _ _ hl

theorem flowFull_inj' {c c' f f' : String} (hf : IsName f) (hf' : IsName f') (h : flowFull c f = flowFull c' f') : c = c' ∧ f = f' :=
  split_last hf.valid hf'.valid h

theorem Own.apart {c c' : String} {fl fl' : List String} {l : String} (hc : IsName c) (hc' : IsName c') (hf : ∀ f ∈ fl, IsName f) (hf' : ∀ f ∈ fl', IsName f)
    (hne : c ≠ c') (h : Own c fl l) (h' : Own c' fl' l) : False := by
  rcases h with rfl | ⟨f, h1, rfl⟩
  · rcases h' with rfl | ⟨f', h2, h3⟩
    · exact hne rfl
    · exact name_ne_flowFull hc h3
  · rcases h' with h3 | ⟨f', h2, h3⟩
    · exact name_ne_flowFull hc' h3.symm
    · exact hne (flowFull_inj' (hf f h1) (hf' f' h2) h3).1

theorem Own.full {c : String} {fl : List String} {l : String} (hc : IsName c) (hf : ∀ f ∈ fl, IsName f) (h : Own c fl l) : IsFull l := by
  rcases h with rfl | ⟨f, h1, rfl⟩
  · exact Or.inl hc
  · exact Or.inr ⟨c, f, hc, hf f h1, rfl⟩

theorem CallIn.own {es : List EffectData} {c : String} {fl ss : List String} {k : CallKey} (hss : ss ⊆ shareSufs) (h : CallIn es c fl ss k) :
    k.2.1 ∈ es.map (·.label) ∧ ∃ el x, Own c fl el ∧ x ∈ shareSufs ∧ k.2.2 = .share el x ∧ k.1 = if x ∈ opShareSufs then .operation else .invest := by
  rcases h with h | ⟨f, hf, h⟩
  · obtain ⟨x, h1, h2, h3⟩ := h.key
    exact ⟨h.known, c, x, Or.inl rfl, hss h1, h2, h3⟩
  · obtain ⟨x, h1, h2, h3⟩ := h.key
    exact ⟨h.known, _, x, Or.inr ⟨f, hf, rfl⟩, h1, h2, h3⟩

theorem shareSufs_sub : shareSufs ⊆ shareSufs := fun _ h => h

section
variable {s : System} (hs : s.Named)
include hs

theorem System.Named.comp {c : Comp} (hc : c ∈ s.comps) : IsName c.label := hs.names _ (by simp [System.labels]; exact Or.inl ⟨c, hc, rfl⟩)
theorem System.Named.bus {b : BusData} (hb : b ∈ s.buses) : IsName b.label := hs.names _ (by simp [System.labels]; exact Or.inr (Or.inl ⟨b, hb, rfl⟩))
theorem System.Named.effect {e : EffectData} (he : e ∈ s.effects) : IsName e.label := hs.names _ (by simp [System.labels]; exact Or.inr (Or.inr ⟨e, he, rfl⟩))
theorem System.Named.flowName {c : Comp} (hc : c ∈ s.comps) : ∀ f ∈ c.flows.map (·.label), IsName f := by
  intro l hl
  obtain ⟨f, hf, rfl⟩ := List.mem_map.1 hl
  exact hs.flowNames c hc f hf

theorem System.Named.comps : (s.comps.map Comp.label).Nodup := by
  have := hs.distinct
  unfold System.labels at this
  exact (List.nodup_append.1 (List.nodup_append.1 (List.nodup_append.1 this).1).1).1
theorem System.Named.buses : (s.buses.map (·.label)).Nodup := by
  have := hs.distinct
  unfold System.labels at this
  exact (List.nodup_append.1 (List.nodup_append.1 (List.nodup_append.1 this).1).1).2.1
theorem System.Named.effects : (s.effects.map (·.label)).Nodup := by
  have := hs.distinct
  unfold System.labels at this
  exact (List.nodup_append.1 (List.nodup_append.1 this).1).2.1
theorem System.Named.comp_bus {c : Comp} {b : BusData} (hc : c ∈ s.comps) (hb : b ∈ s.buses) : c.label ≠ b.label := by
  have := hs.distinct
  unfold System.labels at this
  exact (List.nodup_append.1 (List.nodup_append.1 (List.nodup_append.1 this).1).1).2.2 _ (List.mem_map_of_mem hc) _ (List.mem_map_of_mem hb)
theorem System.Named.comp_effect {c : Comp} {b : EffectData} (hc : c ∈ s.comps) (hb : b ∈ s.effects) : c.label ≠ b.label := by
  have := hs.distinct
  unfold System.labels at this
  exact (List.nodup_append.1 (List.nodup_append.1 this).1).2.2 _ (List.mem_append_left _ (List.mem_map_of_mem hc)) _ (List.mem_map_of_mem hb)
theorem System.Named.bus_effect {c : BusData} {b : EffectData} (hc : c ∈ s.buses) (hb : b ∈ s.effects) : c.label ≠ b.label := by
  have := hs.distinct
  unfold System.labels at this
  exact (List.nodup_append.1 (List.nodup_append.1 this).1).2.2 _ (List.mem_append_right _ (List.mem_map_of_mem hc)) _ (List.mem_map_of_mem hb)
theorem System.Named.penalty {l : String} (hl : l ∈ s.labels) : l ≠ "Effects" :=
  (List.nodup_append.1 hs.distinct).2.2 _ hl _ (by simp)
end

theorem pairwise_ne {α : Type} {l : List α} {g : α → String} (h : (l.map g).Nodup) : l.Pairwise fun a b => g a ≠ g b := List.pairwise_map.1 h

theorem bus_callKeys (es : List EffectData) {sys : Sys} (hv : sys.Valid) {b : BusData} {ins outs : List Var} {ob : BusOut} (hbf : ∀ pen, b.excessPenalty = some pen → pen.Fits sys.n)
    (hin : ∀ x ∈ ins, x.length = sys.n) (hout : ∀ x ∈ outs, x.length = sys.n) (h : busModel sys b ins outs = .ok ob) :
    KL callName (fun k => ∃ x ∈ excessSufs, k = (.penalty, "", .pen b.label x)) (ob.shares.map (callSig es)) ∧
    (∀ c ∈ ob.shares, ∃ a, address es c = .ok a) ∧ ∀ c ∈ ob.shares, ∀ x, c.var = some x → x.length = sys.n := by
  cases hp : b.excessPenalty with
  | none =>
    obtain ⟨_, _, e, _⟩ := bus_none h hp hin hout
    rw [e]
    exact ⟨KL.nil, by simp, by simp⟩
  | some pen =>
    obtain ⟨ein, eout, f, _, _, l1, l2, n1, n2, hff, hf, hsh, _⟩ := bus_some hv h hp (hbf pen hp) hin hout
    rw [hsh]
    refine ⟨⟨[(.penalty, "", .pen b.label "_excess_input"), (.penalty, "", .pen b.label "_excess_output")], ?_, ?_, ?_⟩, ?_, ?_⟩
    · simp only [List.map_cons, List.map_nil, callSig, callName, ShareCall.labelIn, VT.name, String.append_assoc]
      rw [show ("_" : String) ++ "_excess_input" = "__excess_input" by decide +kernel, show ("_" : String) ++ "_excess_output" = "__excess_output" by decide +kernel]
    · simp
    · simp [excessSufs]
    · simp only [List.forall_mem_cons, List.not_mem_nil, false_imp_iff, implies_true, and_true]
      exact ⟨⟨_, rfl⟩, ⟨_, rfl⟩⟩
    · simp [n1, n2]

theorem map_flatten_shares {α β : Type} (sh : α → List ShareCall) (g : ShareCall → β) (l : List α) : (l.map sh).flatten.map g = l.flatMap fun a => (sh a).map g := by
  induction l with
  | nil => rfl
  | cons a l ih => simp [ih]

/-- The calls of a whole system. -/
theorem system_callKeys {sys : Sys} (hv : sys.Valid) (hn : 1 < sys.n) {s : System} (hs : s.Named) (hk : ∀ c ∈ s.comps, c.Known s.effects)
    (hbf : ∀ b ∈ s.buses, ∀ pen, b.excessPenalty = some pen → pen.Fits sys.n) {comps : List CompOut} {buses : List BusOut}
    (hc : List.Forall₂ (fun c oc => Comp.model sys c = .ok oc) s.comps comps)
    (hb : List.Forall₂ (fun b ob => busModel sys b (busFlows (comps.map (·.outputs)).flatten b.label)
      (busFlows (comps.map (·.inputs)).flatten b.label) = .ok ob) s.buses buses) :
    let calls := (comps.map (·.shares)).flatten ++ (buses.map (·.shares)).flatten
    KL callName (SysCall s) (calls.map (callSig s.effects)) ∧ (∀ c ∈ calls, ∃ a, address s.effects c = .ok a) ∧
      ∀ c ∈ calls, c.asSum = true → ∀ x, c.var = some x → x.length ≠ 1 := by
  have f1 := (busFlows_all (σ := fun _ _ => 0) (n := sys.n) (t := 0) Comp.outputs (·.outputs) (forall₂_imp' hc fun c _ oc h => (model_flowOf h).2) (bus := ·) |>.2)
  have f2 := (busFlows_all (σ := fun _ _ => 0) (n := sys.n) (t := 0) Comp.inputs (·.inputs) (forall₂_imp' hc fun c _ oc h => (model_flowOf h).1) (bus := ·) |>.2)
  have kc := forall₂_imp' hc fun c hcm oc hh => model_callsOk (hk c hcm) (hs.flowDistinct c hcm) hh
  have kb := forall₂_imp' hb fun b hbm ob hh => bus_callKeys s.effects hv (hbf b hbm) (f1 b.label) (f2 b.label) hh
  refine ⟨?_, ?_, ?_⟩
  · rw [List.map_append, map_flatten_shares, map_flatten_shares]
    refine KL.append (KL.forall₂ (forall₂_imp' kc fun c _ oc h => h.keys) ?_) (KL.forall₂ (forall₂_imp' kb fun b _ ob h => h.1) ?_) ?_
      (fun k h => Or.inl h) (fun k h => Or.inr h)
    · refine (pairwise_ne hs.comps).imp_of_mem ?_
      intro c c' hcm hcm' hne k h h'
      obtain ⟨_, el, x, o1, _, e1, _⟩ := CallIn.own shareSufs_sub h
      obtain ⟨_, el', x', o1', _, e1', _⟩ := CallIn.own shareSufs_sub h'
      rw [e1] at e1'
      cases e1'
      exact Own.apart (hs.comp hcm) (hs.comp hcm') (hs.flowName hcm) (hs.flowName hcm') hne o1 o1'
    · refine (pairwise_ne hs.buses).imp ?_
      rintro b b' hne k ⟨x, _, rfl⟩ ⟨x', _, h⟩
      simp only [Prod.mk.injEq, VT.pen.injEq, true_and] at h
      exact hne h.1
    · rintro k ⟨c, _, h⟩ ⟨b, _, x, _, rfl⟩
      obtain ⟨_, el, x, _, _, e1, _⟩ := CallIn.own shareSufs_sub h
      cases e1
  · intro c hcm
    rcases List.mem_append.1 hcm with hcm | hcm
    · obtain ⟨l, hl, hcl⟩ := List.mem_flatten.1 hcm
      obtain ⟨oc, hoc, rfl⟩ := List.mem_map.1 hl
      obtain ⟨_, _, h⟩ := forall₂_mem_right kc hoc
      exact h.addr c hcl
    · obtain ⟨l, hl, hcl⟩ := List.mem_flatten.1 hcm
      obtain ⟨oc, hoc, rfl⟩ := List.mem_map.1 hl
      obtain ⟨_, _, h⟩ := forall₂_mem_right kb hoc
      exact h.2.1 c hcl
  · intro c hcm has x hx
    rcases List.mem_append.1 hcm with hcm | hcm
    · obtain ⟨l, hl, hcl⟩ := List.mem_flatten.1 hcm
      obtain ⟨oc, hoc, rfl⟩ := List.mem_map.1 hl
      obtain ⟨_, _, h⟩ := forall₂_mem_right kc hoc
      rw [h.sum c hcl] at has
      cases has
    · obtain ⟨l, hl, hcl⟩ := List.mem_flatten.1 hcm
      obtain ⟨oc, hoc, rfl⟩ := List.mem_map.1 hl
      obtain ⟨_, _, h⟩ := forall₂_mem_right kb hoc
      rw [h.2.2 c hcl x hx]
      omega

theorem goesTo_filter {es : List EffectData} {calls : List ShareCall} (had : ∀ c ∈ calls, ∃ a, address es c = .ok a) {t : Target} (ht : t ≠ .penalty) (l : String) :
    calls.filter (ShareCall.goesTo es t l) = calls.filter fun c => decide (c.target = t ∧ c.labelIn es = l) := by
  refine List.filter_congr fun c hc => ?_
  obtain ⟨a, ha⟩ := had c hc
  exact goesTo_iff ha ht l

/-- At most one share of every other effect. -/
theorem others_keys {es : List EffectData} (hn : (es.map (·.label)).Nodup) (hel : ∀ e ∈ es, IsName e.label) {l : String} (hl : IsName l)
    (sh : EffectData → List (String × Num)) (hsh : ∀ e ∈ es, ((sh e).map (·.1)).Nodup) {p : String} (hp : p ∈ partSufs) :
    KL VT.name (fun v => ∃ e ∈ es, v = .other e.label p) (es.flatMap fun e => ((sh e).filter fun q => q.1 = l).map fun _ => e.label ++ p) := by
  refine KL.flatMap (f := VT.name) (P := fun (e : EffectData) (v : VT) => v = .other e.label p) ?_ ?_
  · intro e he
    have hle : ((sh e).filter fun q => q.1 = l).length ≤ 1 := by
      have h1 : (((sh e).filter fun q => q.1 = l).map (·.1)).Nodup := (List.filter_sublist.map _).nodup (hsh e he)
      generalize hq : ((sh e).filter fun q => q.1 = l) = qs at h1
      have h2 : ∀ q ∈ qs, q.1 = l := by
        intro q hqm
        rw [← hq] at hqm
        exact of_decide_eq_true (List.mem_filter.1 hqm).2
      match qs with
      | [] => simp
      | [_] => simp
      | a :: b :: qs =>
        exfalso
        simp only [List.map_cons, List.nodup_cons, List.mem_cons, not_or] at h1
        exact h1.1.1 ((h2 a (by simp)).trans (h2 b (by simp)).symm)
    match hq : ((sh e).filter fun q => q.1 = l) with
    | [] => rw [hq]; exact KL.nil
    | [a] => rw [hq]; exact ⟨[.other e.label p], rfl, by simp, by simp⟩
    | a :: b :: qs => rw [hq] at hle; simp at hle
  · refine (pairwise_ne hn).imp ?_
    rintro a b hne k rfl h
    exact hne (VT.other.inj h).1

theorem SysCall.share {s : System} (hs : s.Named) {t : Target} (ht : t ≠ .penalty) {l : String} {v : VT} (h : SysCall s (t, l, v)) :
    ∃ el x, IsFull el ∧ x ∈ shareSufs ∧ v = .share el x ∧ t = if x ∈ opShareSufs then .operation else .invest := by
  rcases h with ⟨c, hc, h⟩ | ⟨b, _, x, _, h⟩
  · obtain ⟨_, el, x, o1, o2, e1, e2⟩ := CallIn.own shareSufs_sub h
    exact ⟨el, x, o1.full (hs.comp hc) (hs.flowName hc), o2, e1, e2⟩
  · cases h
    exact absurd rfl ht

/-- The names of the operational shares of an effect. -/
theorem opNames_keys {s : System} (hs : s.Named) (hk : ∀ e ∈ s.effects, e.Known s.effects) {calls : List ShareCall}
    (h : KL callName (SysCall s) (calls.map (callSig s.effects))) (had : ∀ c ∈ calls, ∃ a, address s.effects c = .ok a) {e : EffectData} (he : e ∈ s.effects) :
    KL VT.name (NameOk e.label (opShareSufs ++ ["_operation"])) (opNames s.effects calls e.label) := by
  unfold opNames
  rw [goesTo_filter had (by decide)]
  refine KL.append (others_keys hs.effects (fun e he => hs.effect he) (hs.effect he) (·.shareOperation) (fun e he => (hk e he).operation.1) (by decide +kernel))
    (h.filter _ _) ?_ ?_ ?_
  · rintro k ⟨e', _, rfl⟩ h2
    obtain ⟨el, x, _, _, h3, _⟩ := h2.share hs (by decide)
    cases h3
  · rintro k ⟨e', he', rfl⟩
    exact ⟨⟨hs.effect he, hs.effect he', by decide +kernel⟩, Or.inr rfl, by simp [VT.suf]⟩
  · intro k h0
    obtain ⟨el, x, h1, h2, rfl, h4⟩ := h0.share hs (by decide)
    refine ⟨⟨hs.effect he, h1, h2⟩, Or.inl rfl, ?_⟩
    by_cases hx : x ∈ opShareSufs
    · exact List.mem_append_left _ hx
    · rw [if_neg hx] at h4; cases h4

/-- The names of the shares of an effect in the investment. -/
theorem invNames_keys {s : System} (hs : s.Named) (hk : ∀ e ∈ s.effects, e.Known s.effects) {calls : List ShareCall}
    (h : KL callName (SysCall s) (calls.map (callSig s.effects))) (had : ∀ c ∈ calls, ∃ a, address s.effects c = .ok a) {e : EffectData} (he : e ∈ s.effects) :
    KL VT.name (NameOk e.label (invShareSufs ++ ["_invest"])) (invNames s.effects calls e.label) := by
  unfold invNames
  rw [goesTo_filter had (by decide)]
  refine KL.append (others_keys hs.effects (fun e he => hs.effect he) (hs.effect he) (·.shareInvest) (fun e he => (hk e he).invest.1) (by decide +kernel))
    (h.filter _ _) ?_ ?_ ?_
  · rintro k ⟨e', _, rfl⟩ h2
    obtain ⟨el, x, _, _, h3, _⟩ := h2.share hs (by decide)
    cases h3
  · rintro k ⟨e', he', rfl⟩
    exact ⟨⟨hs.effect he, hs.effect he', by decide +kernel⟩, Or.inr rfl, by simp [VT.suf]⟩
  · intro k h0
    obtain ⟨el, x, h1, h2, rfl, h4⟩ := h0.share hs (by decide)
    refine ⟨⟨hs.effect he, h1, h2⟩, Or.inl rfl, ?_⟩
    by_cases hx : x ∈ opShareSufs
    · rw [if_pos hx] at h4; cases h4
    · unfold shareSufs at h2
      rcases List.mem_append.1 h2 with h | h
      · exact absurd h hx
      · exact List.mem_append_left _ h

theorem penNames_keys {s : System} (hs : s.Named) {calls : List ShareCall}
    (h : KL callName (SysCall s) (calls.map (callSig s.effects))) :
    KL VT.name (fun v => ∃ b x, IsName b ∧ x ∈ excessSufs ∧ v = .pen b x) ((calls.filter fun c => decide (c.target = .penalty)).map (·.name)) := by
  have e : (calls.filter fun c => decide (c.target = .penalty)) = calls.filter fun c => decide (c.target = .penalty ∧ c.labelIn s.effects = "") := by
    refine List.filter_congr fun c _ => ?_
    by_cases hc : c.target = .penalty
    · simp [hc, ShareCall.labelIn]
    · simp [hc]
  rw [e]
  refine (h.filter .penalty "").mono ?_
  rintro v (⟨c, hc, h⟩ | ⟨b, hb, x, hx, h⟩)
  · obtain ⟨_, el, x, o1, o2, e1, e2⟩ := CallIn.own shareSufs_sub h
    exfalso
    simp only at e2
    split at e2 <;> cases e2
  · cases h
    exact ⟨b.label, x, hs.bus hb, hx, rfl⟩

theorem NameOk.inj {el : String} {sufs : List String} {v v' : VT} (h : NameOk el sufs v) (h' : NameOk el sufs v') (he : v.name = v'.name) : v = v' := by
  have := vlabel_inj (k := (el, v)) (k' := (el, v')) h.occurs h'.occurs (by
    rw [vlabel_name (h.kind.imp id Or.inl), vlabel_name (h'.kind.imp id Or.inl), he])
  exact (Prod.mk.inj this).2

theorem pen_inj {v v' : VT} (h : ∃ b x, IsName b ∧ x ∈ excessSufs ∧ v = .pen b x) (h' : ∃ b x, IsName b ∧ x ∈ excessSufs ∧ v' = .pen b x)
    (he : v.name = v'.name) : v = v' := by
  obtain ⟨b, x, h1, h2, rfl⟩ := h
  obtain ⟨b', x', h1', h2', rfl⟩ := h'
  have hE : IsName "Effects" := ⟨by decide +kernel, by decide +kernel⟩
  have := vlabel_inj (k := ("Effects", .pen b x)) (k' := ("Effects", .pen b' x')) ⟨hE, h1, h2⟩ ⟨hE, h1', h2'⟩ (by
    rw [vlabel_name (by simp [VT.kind]), vlabel_name (by simp [VT.kind]), he])
  exact (Prod.mk.inj this).2

/-! ## The effects -/

theorem coll_keys {sys : Sys} (hv : sys.Valid) {s : System} (hs : s.Named) (hk : ∀ e ∈ s.effects, e.Known s.effects) (hf : ∀ e ∈ s.effects, e.Fits sys.n)
    {calls : List ShareCall} {o : CollOut} (h : collectionModel sys s.effects calls = .ok o)
    (hc : KL callName (SysCall s) (calls.map (callSig s.effects))) (had : ∀ c ∈ calls, ∃ a, address s.effects c = .ok a) :
    KL vlabel (fun k => (∃ e ∈ s.effects, VIn e.label [5, 7, 8] k) ∨ VIn "Effects" [5, 9] k) o.tree.labels ∧
    KL clabel (fun k => (∃ e ∈ s.effects, CIn e.label [5, 17, 18] k) ∨ CIn "Effects" [5, 19] k) o.tree.conLabels := by
  obtain ⟨between, addressed, trees, pt, h1, h2, h3, h4, h5, h6, h7, h8⟩ := collection_inv h
  have hsh : List.Forall₂ (EvShape sys) s.effects o.effects := forall₂_imp' h1 fun e he ev hev => (effectVars_ok hv (hf e he) hev).1
  obtain ⟨p1, _, p3, _⟩ := penaltyVars_ok hv h2
  have hop : ∀ l, sharesFor .operation l (between.flatten ++ addressed) = opShares s.effects o.effects calls l := by
    intro l
    rw [sharesFor_append, (sharesFor_between h3 l).1, sharesFor_addressed h5 (by decide)]
    rfl
  have hin : ∀ l, sharesFor .invest l (between.flatten ++ addressed) = invShares s.effects o.effects calls l := by
    intro l
    rw [sharesFor_append, (sharesFor_between h3 l).2.1, sharesFor_addressed h5 (by decide)]
    rfl
  have hpe : (sharesFor .penalty "" (between.flatten ++ addressed)).map (·.name) = (calls.filter fun c => decide (c.target = .penalty)).map (·.name) := by
    rw [sharesFor_append, (sharesFor_between h3 "").2.2, sharesFor_penalty h5, List.nil_append, List.map_map]
    rfl
  have hE : IsName "Effects" := ⟨by decide +kernel, by decide +kernel⟩
  have ke : List.Forall₂ (fun e t => KL vlabel (VIn e.label [5, 7, 8]) t.labels ∧ KL clabel (CIn e.label [5, 17, 18]) t.conLabels) s.effects trees := by
    refine forall₂_imp' (forall₂_comp' (T := fun e t => ∃ ev, EvShape sys e ev ∧ effectTree (between.flatten ++ addressed) ev = .ok t) hsh h6
      fun a b c h h' => ⟨b, h, h'⟩) ?_
    rintro e he t ⟨ev, hev, ht⟩
    refine effect_keys hev ht (hs.effect he) ?_ ?_
    · rw [hin, invShares_names hsh]
      exact invNames_keys hs hk hc had he
    · rw [hop, opShares_names hsh]
      exact opNames_keys hs hk hc had he
  obtain ⟨vs, v1, v2, v3⟩ := penNames_keys hs hc
  have hcls : ∀ v ∈ vs, v.kind = 6 ∧ v.cls = 9 ∧ v.Occurs "Effects" := by
    intro v hv
    obtain ⟨b, x, a1, a2, rfl⟩ := v3 v hv
    exact ⟨rfl, rfl, hE, a1, a2⟩
  have hpk : KL vlabel (VIn "Effects" [5, 9]) pt.labels ∧ KL clabel (CIn "Effects" [5, 19]) pt.conLabels := by
    constructor
    · rw [samTree_labels h7, p1, p3]
      refine vkl (.plain "__penalty_penalty_sum" :: vs) ?_ ?_ ?_
      · have : (sharesFor .penalty "" (between.flatten ++ addressed)).map (fun c => shareLabel penaltyData.el c.name) = vs.map fun v => vlabel ("Effects", v) := by
          have e1 := congrArg (List.map (shareLabel penaltyData.el)) (hpe.trans v1)
          rw [List.map_map, List.map_map] at e1
          refine e1.trans (List.map_congr_left fun v hv => ?_)
          rw [vlabel_name (by simp [(hcls v hv).1])]
          rfl
        simp only [Option.map_none, Option.toList_none, List.map_cons, this]
        simp [vlabel, VT.pre, VT.suf, penaltyL]
      · refine List.nodup_cons.2 ⟨fun hm => ?_, v2⟩
        have := (hcls _ hm).1
        simp [VT.kind] at this
      · intro t ht
        rcases List.mem_cons.1 ht with rfl | ht
        · exact ⟨⟨Or.inl hE, by decide +kernel⟩, by decide +kernel⟩
        · exact ⟨(hcls t ht).2.2, by simp [(hcls t ht).2.1]⟩
    · rw [samTree_conLabels h7, p3]
      refine ckl (.plain "__penalty_penalty_sum" :: vs.map .share) ?_ ?_ ?_
      · have : (sharesFor .penalty "" (between.flatten ++ addressed)).map (fun c => shareLabel penaltyData.el c.name ++ "_" ++ shareLabel penaltyData.el c.name) =
            vs.map fun v => clabel ("Effects", .share v) := by
          have e1 := congrArg (List.map (fun n => shareLabel penaltyData.el n ++ "_" ++ shareLabel penaltyData.el n)) (hpe.trans v1)
          rw [List.map_map, List.map_map] at e1
          refine e1.trans (List.map_congr_left fun v hv => ?_)
          rw [clabel_share, vlabel_name (by simp [(hcls v hv).1])]
          rfl
        simp only [Option.map_none, Option.toList_none, List.map_cons, this, List.map_map]
        simp [clabel, CT.pre, CT.suf, penaltyData, Function.comp_def]
      · refine List.nodup_cons.2 ⟨fun hm => ?_, v2.map fun a b h => CT.share.inj h⟩
        obtain ⟨v, _, hv⟩ := List.mem_map.1 hm
        cases hv
      · intro t ht
        rcases List.mem_cons.1 ht with rfl | ht
        · exact ⟨occurs_plain (Or.inl hE) (by decide +kernel) (by decide +kernel), by decide +kernel⟩
        · obtain ⟨v, hv, rfl⟩ := List.mem_map.1 ht
          exact ⟨⟨(hcls v hv).2.2, by simp [(hcls v hv).1]⟩, by simp [CT.cls, (hcls v hv).2.1]⟩
  have hne : ∀ e ∈ s.effects, e.label ≠ "Effects" := fun e he => hs.penalty (by simp [System.labels]; exact Or.inr (Or.inr ⟨e, he, rfl⟩))
  rw [h8, labels_node, conLabels_node]
  simp only [List.map_nil, List.nil_append, List.flatMap_append, List.flatMap_cons, List.flatMap_nil, List.append_nil]
  constructor
  · refine KL.append (KL.forall₂ (forall₂_imp' ke fun e _ t h => h.1) ?_) hpk.1 ?_ (fun k h => Or.inl h) (fun k h => Or.inr h)
    · exact (pairwise_ne hs.effects).imp fun hne k h h' => hne (h.el.symm.trans h'.el)
    · rintro k ⟨e, he, h⟩ h'
      exact hne e he (h.el.symm.trans h'.el)
  · refine KL.append (KL.forall₂ (forall₂_imp' ke fun e _ t h => h.2) ?_) hpk.2 ?_ (fun k h => Or.inl h) (fun k h => Or.inr h)
    · exact (pairwise_ne hs.effects).imp fun hne k h h' => hne (h.el.symm.trans h'.el)
    · rintro k ⟨e, he, h⟩ h'
      exact hne e he (h.el.symm.trans h'.el)

end Flix
