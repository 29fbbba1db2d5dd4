import Verif.Lemmas.Scale4
import Verif.Lemmas.Rename4

namespace Flix

open Classical in
/-- The factor of a variable of the system `s`. -/
noncomputable def System.factor (s : System) (k : ℚ) (l : String) : ℚ := if ∃ el x, s.HasElement el ∧ x ∈ energyEndings ∧ l = el ++ x then k else 1

variable {s : System} {sys : Sys} {o o' : SysOut} {k : ℚ}

theorem factor_pos (hk : 0 < k) (l : String) : 0 < s.factor k l := by
  unfold System.factor
  split
  · exact hk
  · exact one_pos

theorem HasElement.full (hs : s.Named) {el : String} (h : s.HasElement el) : IsFull el := by
  cases h with
  | comp c hc => exact .inl (hs.comp hc)
  | flow c f hc hf => exact full_of_flow (hs.comp hc) (hs.flowNames c hc f hf)
  | bus b hb => exact .inl (hs.bus hb)

theorem factor_energy {el x : String} (h : s.HasElement el) (hx : x ∈ energyEndings) : s.factor k (el ++ x) = k := by
  unfold System.factor
  rw [if_pos ⟨el, x, h, hx, rfl⟩]

theorem factor_one (hs : s.Named) {key : String × VT} (ho : key.2.Occurs key.1) (hn : ∀ x ∈ energyEndings, key.2 ≠ .plain x) : s.factor k (vlabel key) = 1 := by
  unfold System.factor
  rw [if_neg]
  rintro ⟨el, x, he, hx, e⟩
  have sub : ∀ x ∈ energyEndings, x ∈ plainVarSufs := by decide +kernel
  have := vlabel_inj (k' := (el, .plain x)) ho ⟨HasElement.full hs he, sub x hx⟩ e
  exact hn x hx (by rw [this])

theorem factor_scEl (hs : s.Named) {el : String} (h : s.HasElement el) : ScEl (s.factor k) k IsName el := by
  have hf := HasElement.full hs h
  refine ⟨fun x hx => factor_energy h hx, fun x hx => ?_, fun e hn => ?_, fun i x hx => ?_⟩
  · have sub : ∀ x ∈ plainEndings, x ∈ plainVarSufs ∧ x ∉ energyEndings := by decide +kernel
    exact factor_one (key := (el, .plain x)) hs ⟨hf, (sub x hx).1⟩ fun y hy e => (sub x hx).2 (by cases e; exact hy)
  · have := factor_one (k := k) (key := (el, .seg e)) hs ⟨hf, hn⟩ fun y hy e => by cases e
    simp only [vlabel, VT.pre, VT.suf] at this
    simpa only [String.append_assoc] using this
  · have key : "_" ++ x ∈ segmSufs := by
      simp only [List.mem_cons, List.not_mem_nil, or_false] at hx
      rcases hx with rfl | rfl | rfl <;> decide +kernel
    have := factor_one (k := k) (key := (el, .segm i ("_" ++ x))) hs ⟨hf, key⟩ fun y hy e => by cases e
    simp only [vlabel, VT.pre, VT.suf] at this
    rw [show ("Segment_" : String) = "Segment" ++ "_" by decide +kernel]
    simpa only [String.append_assoc] using this

theorem compSc (hs : s.Named) (hk : s.SegmentsKnown) {c : Comp} (hc : c ∈ s.comps) : CompSc (s.factor k) k IsName c.label c.flows := by
  refine ⟨factor_scEl hs (.comp c hc), fun f hf => factor_scEl hs (.flow c f hc hf), fun f hf q hq xs rs e r hr => ?_⟩
  obtain ⟨e', he, e⟩ := List.mem_map.1 ((hk c hc).1 f hf q hq xs rs e r hr)
  rw [← e]
  exact hs.effect he

theorem storage_segIn (hs : s.Named) (hk : s.SegmentsKnown) {c : Comp} (hc : c ∈ s.comps) : ∀ t q, c = .storage t → t.capacity = .invest q → q.SegIn IsName := by
  intro t q ht hq xs rs e r hr
  obtain ⟨e', he, e⟩ := List.mem_map.1 ((hk c hc).2 t q ht hq xs rs e r hr)
  rw [← e]
  exact hs.effect he

theorem model_factor (hu : UnitOk sys k) (hs : s.Named) (hk : s.SegmentsKnown) {c : Comp} (hc : c ∈ s.comps) :
    ExR (CompOut.Sc (s.factor k) k) (c.model sys) ((c.inUnit k).model (sys.inUnit k)) :=
  model_sc hu (compSc hs hk hc) (storage_segIn hs hk hc)

theorem bus_sc {κ : String → ℚ} (hk : 0 < k) {E : String → Prop} {b : BusData} (h : ScEl κ k E b.label) {ins ins' outs outs' : List Var} (hi : List.Forall₂ (VarK κ k) ins ins') (ho : List.Forall₂ (VarK κ k) outs outs') :
    ExR (fun x y => x.tree.Sc κ y.tree) (busModel sys b ins outs) (busModel (sys.inUnit k) (b.inUnit k) ins' outs') := by
  have e : OpsR κ k (ins.map (fun x => sAll x (.s 1)) ++ outs.map (fun x => sAll x (.s (-1)))) (ins'.map (fun x => sAll x (.s 1)) ++ outs'.map (fun x => sAll x (.s (-1)))) := by
    unfold OpsR
    refine List.rel_append ?_ ?_
    · rw [List.forall₂_map_left_iff, List.forall₂_map_right_iff]
      exact hi.imp fun _ _ k => op_k hk k
    · rw [List.forall₂_map_left_iff, List.forall₂_map_right_iff]
      exact ho.imp fun _ _ k => op_k hk k
  unfold busModel
  dsimp only
  rw [show (b.inUnit k).excessPenalty = b.excessPenalty.map (Num.map (· / k)) from rfl]
  cases b.excessPenalty with
  | none => exact .ok (sc_node .nil (.cons (sc_eq hk e) .nil) .nil)
  | some pen =>
    dsimp only [Option.map_some]
    refine ExR.bind (R := fun _ _ => True) ?_ fun _ _ _ => ?_
    · have := zip_maps (f := (· * ·)) (f' := (· * ·)) (g := id) (h := (· / k)) (p := (· / k)) (fun x y => by simp [mul_div_assoc]) (Num.v sys.dt) pen
      rw [num_map_id (f := id) (fun _ => rfl)] at this
      change ExR _ _ (Num.zip (· * ·) (Num.v sys.dt) (pen.map (· / k)))
      rw [this]
      change ExR _ (Num.zip (· * ·) (Num.v sys.dt) pen) _
      cases Num.zip (· * ·) (Num.v sys.dt) pen with
      | error e => exact .error _
      | ok a => exact .ok trivial
    refine ExR.bind (R := VarK κ k) (mkVar_k hk (h.e2 (by decide +kernel)) rfl (by simp [Num.map]) rfl rfl) fun a a' ha => ?_
    refine ExR.bind (R := VarK κ k) (mkVar_k hk (h.e2 (by decide +kernel)) rfl (by simp [Num.map]) rfl rfl) fun c c' hc => ?_
    refine .ok (sc_node (.cons ha.s (.cons hc.s .nil)) (.cons (sc_eq hk ?_) .nil) .nil)
    unfold OpsR at e ⊢
    refine List.rel_append e ?_
    exact .cons (op_k hk hc) (.cons (op_k hk ha) .nil)

theorem busFlows_sc {κ : String → ℚ} {fs fs' : List (FlowData × FlowOut)}
    (h : List.Forall₂ (fun q q' : FlowData × FlowOut => q'.1.bus = q.1.bus ∧ VarK κ k q.2.flowRate q'.2.flowRate) fs fs') (b : String) :
    List.Forall₂ (VarK κ k) (busFlows fs b) (busFlows fs' b) := by
  unfold busFlows
  induction h with
  | nil => exact .nil
  | @cons q q' _ _ hh _ ih =>
    rw [List.filterMap_cons, List.filterMap_cons, hh.1]
    by_cases hb : q.1.bus = b
    · rw [if_pos hb, if_pos hb]
      exact .cons hh.2 ih
    · rw [if_neg hb, if_neg hb]
      exact ih

/-- The models of components and buses agree up to factors. -/
structure SysOut.Sc (κ : String → ℚ) (o o' : SysOut) : Prop where
  comps : List.Forall₂ (fun c c' : CompOut => c.tree.Sc κ c'.tree) o.comps o'.comps
  buses : List.Forall₂ (fun b b' : BusOut => b.tree.Sc κ b'.tree) o.buses o'.buses

theorem system_sc (hu : UnitOk sys k) (hs : s.Named) (hk : s.SegmentsKnown) (h : systemModel sys s = .ok o) (h' : systemModel (sys.inUnit k) (s.inUnit k) = .ok o') :
    o.Sc (s.factor k) o' := by
  obtain ⟨h1, h2, _, _⟩ := system_inv h
  obtain ⟨h1', h2', _, _⟩ := system_inv h'
  have hc : List.Forall₂ (CompOut.Sc (s.factor k) k) o.comps o'.comps := by
    have key : ∀ {l : List Comp} {m m' : List CompOut}, (∀ c ∈ l, c ∈ s.comps) → List.Forall₂ (fun c oc => Comp.model sys c = .ok oc) l m →
        List.Forall₂ (fun c oc => Comp.model (sys.inUnit k) c = .ok oc) (l.map (Comp.inUnit k)) m' → List.Forall₂ (CompOut.Sc (s.factor k) k) m m' := by
      intro l
      induction l with
      | nil => intro m m' _ a b; cases a; cases b; exact .nil
      | cons c l ih =>
        intro m m' hm a b
        cases a with
        | cons a1 a2 =>
          cases b with
          | cons b1 b2 =>
            obtain ⟨y, hy, q⟩ := (model_factor hu hs hk (hm c (by simp))).inv a1
            rw [b1] at hy
            cases hy
            exact .cons q (ih (fun c hc => hm c (by simp [hc])) a2 b2)
    exact key (fun _ h => h) h1 h1'
  have fl : ∀ (g : CompOut → List (FlowData × FlowOut)), (∀ x y, CompOut.Sc (s.factor k) k x y → FlowsS (s.factor k) k (g x) (g y)) → ∀ b,
      List.Forall₂ (VarK (s.factor k) k) (busFlows (o.comps.map g).flatten b) (busFlows (o'.comps.map g).flatten b) := by
    intro g hg b
    refine busFlows_sc (forall₂_flatten ?_) b
    rw [List.forall₂_map_left_iff, List.forall₂_map_right_iff]
    refine hc.imp fun x y hxy => ?_
    exact (hg x y hxy).imp fun q q' hq => ⟨by rw [hq.1]; rfl, hq.2.rate⟩
  have fi := fl (·.inputs) fun _ _ k => k.inputs
  have fo := fl (·.outputs) fun _ _ k => k.outputs
  refine ⟨hc.imp fun _ _ k => k.tree, ?_⟩
  have key : ∀ {l : List BusData} {m m' : List BusOut}, (∀ b ∈ l, b ∈ s.buses) →
      List.Forall₂ (fun b ob => busModel sys b (busFlows (o.comps.map (·.outputs)).flatten b.label) (busFlows (o.comps.map (·.inputs)).flatten b.label) = .ok ob) l m →
      List.Forall₂ (fun b ob => busModel (sys.inUnit k) b (busFlows (o'.comps.map (·.outputs)).flatten b.label) (busFlows (o'.comps.map (·.inputs)).flatten b.label) = .ok ob)
        (l.map (BusData.inUnit k)) m' → List.Forall₂ (fun b b' : BusOut => b.tree.Sc (s.factor k) b'.tree) m m' := by
    intro l
    induction l with
    | nil => intro m m' _ a b; cases a; cases b; exact .nil
    | cons c l ih =>
      intro m m' hm a b
      cases a with
      | cons a1 a2 =>
        cases b with
        | cons b1 b2 =>
          have hb := hm c (by simp)
          obtain ⟨y, hy, q⟩ := (bus_sc (sys := sys) hu.pos (factor_scEl hs (.bus c hb)) (fo c.label) (fi c.label)).inv a1
          rw [show (c.inUnit k).label = c.label from rfl] at b1
          rw [b1] at hy
          cases hy
          exact .cons q (ih (fun c hc => hm c (by simp [hc])) a2 b2)
  exact key (fun _ h => h) h2 h2'

/-! ## Contributions -/

variable {κ : String → ℚ} {σ : Assignment}

theorem effVal_perUnit {es : List EffectData} (d : EffDict) (l : String) (t : Nat) : effVal es (EffDict.perUnit k d) l t = effVal es d l t / k := by
  have at_div : ∀ a : Num, (a.map (· / k)).at t = a.at t / k := by
    intro a
    cases a with
    | s x => rfl
    | v xs =>
      match xs with
      | [] => simp [Num.map, Num.at]
      | [x] => simp [Num.map, Num.at]
      | x :: y :: xs =>
        simp only [Num.map, Num.at, List.map_cons]
        rw [← List.map_cons (f := (· / k)), ← List.map_cons (f := (· / k)), List.getD_eq_getElem?_getD, List.getD_eq_getElem?_getD, List.getElem?_map]
        cases (x :: y :: xs)[t]? <;> simp
  unfold effVal EffDict.perUnit
  rw [List.filter_map, List.map_map]
  change ((d.filter fun q => names es l q.1).map _).sum = _
  induction d.filter fun q => names es l q.1 with
  | nil => simp
  | cons q d ih =>
    rw [List.map_cons, List.sum_cons, List.map_cons, List.sum_cons, ih, add_div]
    exact congrArg₂ _ (at_div q.2) rfl

theorem onOffOperation_sc {es : List EffectData} {E : String → Prop} {el : String} (h : ScEl κ k E el) (q : Option OnOffParams) (dt : Nat → ℚ) (l : String) (t : Nat) :
    onOffOperation dt (σ.sc κ) es el q l t = onOffOperation dt σ es el q l t := by
  cases q with
  | none => rfl
  | some q =>
    unfold onOffOperation Assignment.sc
    dsimp only
    rw [h.p3 (by decide +kernel), h.p3 (by decide +kernel), one_mul, one_mul]

theorem investCost_sc (hk : 0 < k) {es : List EffectData} {E : String → Prop} {el : String} (h : ScEl κ k E el) (q : InvestParams) (hq : q.SegIn E) (l : String) :
    investCost (σ.sc κ) es el (q.inUnit k) l = investCost σ es el q l := by
  have e1 : decision (σ.sc κ) el (q.inUnit k) = decision σ el q := by
    have e : κ (el ++ "__" ++ "Investment" ++ "_" ++ "isInvested") = _ := h.p4 (by decide +kernel)
    unfold decision Assignment.sc
    rw [e, one_mul]
    rfl
  have e2 : segmentedCost (σ.sc κ) el (q.inUnit k) l = segmentedCost σ el q l := by
    unfold segmentedCost
    rw [show (q.inUnit k).effectsInSegments = q.effectsInSegments.map (fun x => (x.1.map fun p => (k * p.1, k * p.2), x.2)) from rfl]
    cases hs : q.effectsInSegments with
    | none => rfl
    | some x =>
      obtain ⟨xs, rs⟩ := x
      dsimp only [Option.map_some]
      refine congrArg List.sum (List.map_congr_left fun r hr => ?_)
      have := h.seg r.1 (hq xs rs hs r (List.mem_filter.1 hr).1)
      unfold Assignment.sc
      rw [this, one_mul]
  have e3 : κ (el ++ "__" ++ "Investment" ++ "_" ++ "size") = _ := h.e4 (by decide +kernel)
  unfold investCost
  rw [e1, e2]
  unfold Assignment.sc
  rw [e3]
  simp only [InvestParams.inUnit]
  rw [effVal_perUnit]
  have := hk.ne'
  field_simp

theorem comp_inUnit_shape (c : Comp) : (c.inUnit k).label = c.label ∧ (c.inUnit k).inputs = c.inputs.map (FlowData.inUnit k) ∧
    (c.inUnit k).outputs = c.outputs.map (FlowData.inUnit k) ∧ (c.inUnit k).onOff = c.onOff := by
  cases c with
  | plain d => exact ⟨rfl, rfl, rfl, rfl⟩
  | converter d => exact ⟨rfl, rfl, rfl, rfl⟩
  | storage t => exact ⟨rfl, rfl, rfl, rfl⟩
  | transmission t =>
    refine ⟨rfl, ?_, ?_, rfl⟩
    · simp only [Comp.inUnit, TransData.inUnit, Comp.inputs, List.map_cons]
      cases t.in2 <;> rfl
    · simp only [Comp.inUnit, TransData.inUnit, Comp.outputs, List.map_cons]
      cases t.out2 <;> rfl

theorem comp_inUnit_flows (c : Comp) : (c.inUnit k).flows = c.flows.map (FlowData.inUnit k) := by
  unfold Comp.flows
  rw [(comp_inUnit_shape c).2.1, (comp_inUnit_shape c).2.2.1, List.map_append]

theorem comp_contrib_sc (hk : 0 < k) {es : List EffectData} {E : String → Prop} {c : Comp} (h : CompSc κ k E c.label c.flows) (hq : ∀ s q, c = .storage s → s.capacity = .invest q → q.SegIn E)
    (dt : Nat → ℚ) (l : String) :
    (∀ t, (c.inUnit k).operation dt (σ.sc κ) es l t = c.operation dt σ es l t) ∧ (c.inUnit k).investment (σ.sc κ) es l = c.investment σ es l := by
  obtain ⟨e1, _, _, e4⟩ := comp_inUnit_shape (k := k) c
  refine ⟨fun t => ?_, ?_⟩
  · unfold Comp.operation
    rw [comp_inUnit_flows, e1, e4, onOffOperation_sc h.own, List.map_map]
    congr 2
    refine List.map_congr_left fun f hf => ?_
    have hf' := h.flows f hf
    have er : κ (rateL c.label f.label) = k := hf'.e2 (by decide +kernel)
    simp only [Function.comp_apply]
    unfold flowOperation
    refine congrArg₂ (· + ·) ?_ (onOffOperation_sc hf' f.onOff dt l t)
    change effVal es (EffDict.perUnit k f.effectsPerFlowHour) l t * dt t * (κ (rateL c.label f.label) * σ (rateL c.label f.label) t) = _
    rw [effVal_perUnit, er]
    have := hk.ne'
    field_simp
  · unfold Comp.investment
    rw [comp_inUnit_flows, e1, List.map_map]
    congr 1
    · refine congrArg List.sum (List.map_congr_left fun f hf => ?_)
      simp only [Function.comp_apply]
      unfold flowInvestment
      rw [show (f.inUnit k).size = f.size.inUnit k from rfl]
      cases hs : f.size with
      | unset => rfl
      | num x => rfl
      | invest q => exact investCost_sc hk (h.flows f hf) q (h.segs f hf q hs) l
    · cases c with
      | plain d => rfl
      | converter d => rfl
      | transmission t => rfl
      | storage t =>
        dsimp only [Comp.inUnit]
        unfold capacityInvestment
        rw [show (t.inUnit k).capacity = t.capacity.inUnit k from rfl]
        cases hs : t.capacity with
        | num x => rfl
        | invest q => exact investCost_sc hk h.own q (hq t q rfl hs) l

theorem contribs_sc (hk : 0 < k) (hs : s.Named) (hk' : s.SegmentsKnown) (l : String) :
    (∀ t, (s.inUnit k).opOf (sys.inUnit k) (σ.sc (s.factor k)) l t = s.opOf sys σ l t) ∧ (s.inUnit k).invOf (σ.sc (s.factor k)) l = s.invOf σ l := by
  have each : ∀ c ∈ s.comps, _ := fun c hc => comp_contrib_sc (σ := σ) (es := s.effects) hk (compSc hs hk' hc) (storage_segIn hs hk' hc) sys.width l
  unfold System.opOf System.invOf System.inUnit
  dsimp only
  refine ⟨fun t => ?_, ?_⟩
  · rw [List.map_map]
    exact congrArg List.sum (List.map_congr_left fun c hc => (each c hc).1 t)
  · rw [List.map_map]
    exact congrArg List.sum (List.map_congr_left fun c hc => (each c hc).2)

/-! ## Totals -/

theorem balanced_same {es : List EffectData} {n : Nat} {T : Totals} {op op' : String → Nat → ℚ} {inv inv' : String → ℚ}
    (h3 : ∀ l, ∀ t < n, op' l t = op l t) (h4 : ∀ l, inv' l = inv l) (h : T.Balanced es n op inv) : T.Balanced es n op' inv' := fun e he =>
  ⟨fun t ht => by rw [h3 _ t ht]; exact (h e he).1 t ht, by rw [h4]; exact (h e he).2⟩

theorem allowed_inUnit {T : Totals} {e : EffectData} : T.Allowed (sys.inUnit k) e ↔ T.Allowed sys e :=
  ⟨fun ⟨a, b, c, d, e', f, g, h⟩ => ⟨a, b, c, d, e', f, g, h⟩, fun ⟨a, b, c, d, e', f, g, h⟩ => ⟨a, b, c, d, e', f, g, h⟩⟩

theorem valid_inUnit (hk : 0 < k) (hv : sys.Valid) : (sys.inUnit k).Valid := ⟨hv.hdt, hv.hpos, hv.htotal, mul_pos hk hv.heps⟩

theorem fits_inUnit {n : Nat} (h : s.Fits n) : (s.inUnit k).Fits n := by
  have num : ∀ {a : Num} (f : ℚ → ℚ), (a.map f).isScalar = a.isScalar := by
    intro a f; cases a <;> rfl
  have ser : ∀ {d : EffDict}, d.Series n → EffDict.Series n (EffDict.perUnit k d) := by
    intro d hd q hq
    obtain ⟨p, hp, rfl⟩ := List.mem_map.1 hq
    simpa [num] using hd p hp
  have sca : ∀ {d : EffDict}, d.Scalars → EffDict.Scalars (EffDict.perUnit k d) := by
    intro d hd q hq
    obtain ⟨p, hp, rfl⟩ := List.mem_map.1 hq
    simpa [num] using hd p hp
  have inf : ∀ {q : InvestParams}, q.EffFits → (q.inUnit k).EffFits := fun hq => ⟨hq.1, hq.2.1, sca hq.2.2⟩
  refine ⟨h.effects, fun c' hc' => ?_, fun b' hb' pen hp => ?_⟩
  · obtain ⟨c, hc, rfl⟩ := List.mem_map.1 hc'
    have q := h.comps c hc
    refine ⟨fun f' hf' => ?_, fun q' hq' => ?_, fun t' q' ht' hq' => ?_⟩
    · rw [comp_inUnit_flows] at hf'
      obtain ⟨f, hf, rfl⟩ := List.mem_map.1 hf'
      have kf := q.flows f hf
      refine ⟨ser kf.op, kf.onOff, fun q' hq' => ?_⟩
      change f.size.inUnit k = _ at hq'
      cases hs : f.size with
      | unset => rw [hs] at hq'; cases hq'
      | num x => rw [hs] at hq'; cases hq'
      | invest q => rw [hs] at hq'; cases hq'; exact inf (kf.invest q hs)
    · rw [(comp_inUnit_shape c).2.2.2] at hq'
      exact q.onOff q' hq'
    · cases c with
      | plain d => cases ht'
      | converter d => cases ht'
      | transmission d => cases ht'
      | storage t =>
        cases ht'
        change t.capacity.inUnit k = _ at hq'
        cases hs : t.capacity with
        | num x => rw [hs] at hq'; cases hq'
        | invest p => rw [hs] at hq'; cases hq'; exact inf (q.invest t p rfl hs)
  · obtain ⟨b, hb, rfl⟩ := List.mem_map.1 hb'
    obtain ⟨p, hp', rfl⟩ := Option.map_eq_some_iff.1 hp
    simpa [num] using h.buses b hb p hp'

end Flix
