import Verif.Lemmas.Rename3
import Verif.Lemmas.Keys8
import Verif.Lemmas.Whole
import Verif.Props.Optimum

namespace Flix

open Classical in
/-- The new full label of a component, a bus or a flow. -/
noncomputable def Renaming.full (ρ : Renaming) (s : System) (el : String) : String :=
  if ∃ c ∈ s.comps, el = c.label then ρ.comp el
  else if ∃ b ∈ s.buses, el = b.label then ρ.bus el
  else if h : ∃ p : String × String, (∃ c ∈ s.comps, p.1 = c.label ∧ p.2 ∈ c.flows.map (·.label)) ∧ el = flowFull p.1 p.2 then
    flowFull (ρ.comp h.choose.1) (ρ.flow h.choose.1 h.choose.2)
  else el

/-- The new key of a variable. -/
noncomputable def Renaming.key (ρ : Renaming) (s : System) (k : String × VT) : String × VT :=
  (ρ.full s k.1, match k.2 with
    | .seg e => .seg (ρ.effect e)
    | t => t)

open Classical in
/-- The new label of a variable. -/
noncomputable def Renaming.label (ρ : Renaming) (s : System) (l : String) : String :=
  if h : ∃ k : String × VT, k.2.Occurs k.1 ∧ vlabel k = l then vlabel (ρ.key s h.choose) else l

variable {ρ : Renaming} {s : System} {sys : Sys} {o o' : SysOut}

theorem label_key {k : String × VT} (h : k.2.Occurs k.1) : ρ.label s (vlabel k) = vlabel (ρ.key s k) := by
  unfold Renaming.label
  have hex : ∃ k' : String × VT, k'.2.Occurs k'.1 ∧ vlabel k' = vlabel k := ⟨k, h, rfl⟩
  rw [dif_pos hex, vlabel_inj hex.choose_spec.1 h hex.choose_spec.2]

theorem full_comp {c : Comp} (hc : c ∈ s.comps) : ρ.full s c.label = ρ.comp c.label := by
  unfold Renaming.full
  rw [if_pos ⟨c, hc, rfl⟩]

theorem full_bus (hs : s.Named) {b : BusData} (hb : b ∈ s.buses) : ρ.full s b.label = ρ.bus b.label := by
  unfold Renaming.full
  rw [if_neg (by rintro ⟨c, hc, e⟩; exact hs.comp_bus hc hb e.symm), if_pos ⟨b, hb, rfl⟩]

theorem full_flow (hs : s.Named) {c : Comp} (hc : c ∈ s.comps) {f : FlowData} (hf : f ∈ c.flows) :
    ρ.full s (flowFull c.label f.label) = flowFull (ρ.comp c.label) (ρ.flow c.label f.label) := by
  unfold Renaming.full
  rw [if_neg (by rintro ⟨c, hc, e⟩; exact name_ne_flowFull (hs.comp hc) e.symm), if_neg (by rintro ⟨b, hb, e⟩; exact name_ne_flowFull (hs.bus hb) e.symm)]
  have hex : ∃ p : String × String, (∃ d ∈ s.comps, p.1 = d.label ∧ p.2 ∈ d.flows.map (·.label)) ∧ flowFull c.label f.label = flowFull p.1 p.2 :=
    ⟨(c.label, f.label), ⟨c, hc, rfl, List.mem_map_of_mem hf⟩, rfl⟩
  rw [dif_pos hex]
  obtain ⟨⟨d, hd, _, e2⟩, e⟩ := hex.choose_spec
  obtain ⟨a, b⟩ := flowFull_inj' (hs.flowNames c hc f hf) (hs.flowName hd _ e2) e
  rw [← a, ← b]

theorem label_to {el el' : String} (he : IsFull el) (hf : ρ.full s el = el') : To (ρ.label s) ρ.effect IsName el el' := by
  refine ⟨fun x hx => ?_, fun e hn => ?_, fun i x hx => ?_⟩
  · have := label_key (ρ := ρ) (s := s) (k := (el, .plain x)) ⟨he, hx⟩
    simpa only [vlabel, VT.pre, VT.suf, Renaming.key, hf] using this
  · have := label_key (ρ := ρ) (s := s) (k := (el, .seg e)) ⟨he, hn⟩
    simp only [vlabel, VT.pre, VT.suf, Renaming.key, hf] at this
    simpa only [String.append_assoc] using this
  · have key : "_" ++ x ∈ segmSufs := by
      simp only [List.mem_cons, List.not_mem_nil, or_false] at hx
      rcases hx with rfl | rfl | rfl <;> decide +kernel
    have := label_key (ρ := ρ) (s := s) (k := (el, .segm i ("_" ++ x))) ⟨he, key⟩
    simp only [vlabel, VT.pre, VT.suf, Renaming.key, hf] at this
    rw [show ("Segment_" : String) = "Segment" ++ "_" by decide +kernel]
    simpa only [String.append_assoc] using this

theorem compTo (hs : s.Named) (hk : s.SegmentsKnown) {c : Comp} (hc : c ∈ s.comps) : CompTo (ρ.label s) ρ IsName c.label c.flows := by
  refine ⟨label_to (.inl (hs.comp hc)) (full_comp hc), fun f hf => ?_, fun f hf q hq xs rs e r hr => ?_⟩
  · exact label_to (full_of_flow (hs.comp hc) (hs.flowNames c hc f hf)) (full_flow hs hc hf)
  · obtain ⟨e', he, e⟩ := List.mem_map.1 ((hk c hc).1 f hf q hq xs rs e r hr)
    rw [← e]
    exact hs.effect he

theorem model_label (hρ : ρ.Injective) (hs : s.Named) (hk : s.SegmentsKnown) {c : Comp} (hc : c ∈ s.comps) :
    ExR (CompOut.Like (ρ.label s) ρ c.label) (c.model sys) ((c.rename ρ).model sys) := by
  refine model_rn (hρ.flow _) (compTo hs hk hc) fun t q ht hq xs rs e r hr => ?_
  obtain ⟨e', he, e⟩ := List.mem_map.1 ((hk c hc).2 t q ht hq xs rs e r hr)
  rw [← e]
  exact hs.effect he

theorem bus_rn {L : String → String} {E : String → Prop} {ε β : String → String} {b : BusData} (h : To L ε E b.label (β b.label)) (ins outs : List Var) :
    ExR (fun x y => x.tree.Like L y.tree) (busModel sys b ins outs) (busModel sys (b.rename β) (ins.map (Var.rn L)) (outs.map (Var.rn L))) := by
  have e : (ins.map (Var.rn L)).map (fun x => sAll x (.s 1)) ++ (outs.map (Var.rn L)).map (fun x => sAll x (.s (-1))) =
      (ins.map (fun x => sAll x (.s 1)) ++ outs.map (fun x => sAll x (.s (-1)))).map (Op.rn L) := by
    rw [List.map_append, List.map_map, List.map_map, List.map_map, List.map_map]
    rfl
  unfold busModel
  dsimp only
  rw [show (b.rename β).excessPenalty = b.excessPenalty from rfl, e]
  cases b.excessPenalty with
  | none => exact .ok (like_node rfl (.cons (like_eq rfl) .nil) .nil)
  | some pen =>
    refine ExR.bind (R := Eq) (ExR.refl (fun _ => rfl) _) fun _ _ _ => ?_
    refine ExR.bind (mkVar_rn (h.var2 (by decide +kernel)) _ _ _ _ _ _) fun a _ e => ?_
    subst e
    refine ExR.bind (mkVar_rn (h.var2 (by decide +kernel)) _ _ _ _ _ _) fun c _ e => ?_
    subst e
    refine .ok (like_node rfl (.cons (like_eq ?_) .nil) .nil)
    rw [List.map_append (l₂ := [sAll c (Num.s (-1)), sAll a (Num.s 1)])]
    rfl

theorem busFlows_rn {L : String → String} (hβ : Function.Injective ρ.bus) {fs fs' : List (FlowData × FlowOut)}
    (h : List.Forall₂ (fun q q' : FlowData × FlowOut => q'.1.bus = ρ.bus q.1.bus ∧ q'.2.flowRate = q.2.flowRate.rn L) fs fs') (b : String) :
    busFlows fs' (ρ.bus b) = (busFlows fs b).map (Var.rn L) := by
  unfold busFlows
  induction h with
  | nil => rfl
  | @cons q q' _ _ hh _ ih =>
    rw [List.filterMap_cons, List.filterMap_cons, ih, hh.1, hh.2]
    by_cases hb : q.1.bus = b
    · rw [if_pos hb, if_pos (by rw [hb])]
      rfl
    · rw [if_neg hb, if_neg fun e => hb (hβ e)]

theorem forall₂_flatten {α β : Type} {R : α → β → Prop} {l : List (List α)} {m : List (List β)} (h : List.Forall₂ (List.Forall₂ R) l m) : List.Forall₂ R l.flatten m.flatten := by
  induction h with
  | nil => exact .nil
  | cons hh _ ih => exact List.rel_append hh ih

mutual
theorem like_labels {L : String → String} : ∀ {t t' : MTree}, t.Like L t' → t'.labels = t.labels.map L
  | .node vs cs ss, .node vs' cs' ss', h => by
    rw [MTree.Like] at h
    obtain ⟨rfl, _, h3⟩ := h
    rw [labels_node, labels_node, likeAll_labels h3, List.map_append, List.map_map, List.map_map]
    rfl
theorem likeAll_labels {L : String → String} : ∀ {t t' : List MTree}, MTree.LikeAll L t t' → t'.flatMap MTree.labels = (t.flatMap MTree.labels).map L
  | [], [], _ => rfl
  | t :: ts, t' :: ts', h => by
    rw [MTree.LikeAll] at h
    rw [List.flatMap_cons, List.flatMap_cons, List.map_append, like_labels h.1, likeAll_labels h.2]
  | [], _ :: _, h => by simp [MTree.LikeAll] at h
  | _ :: _, [], h => by simp [MTree.LikeAll] at h
end

/-- The models of components and buses agree up to labels. -/
structure SysOut.Like (L : String → String) (o o' : SysOut) : Prop where
  comps : List.Forall₂ (fun c c' : CompOut => c.tree.Like L c'.tree) o.comps o'.comps
  buses : List.Forall₂ (fun b b' : BusOut => b.tree.Like L b'.tree) o.buses o'.buses

theorem system_like (hρ : ρ.Injective) (hs : s.Named) (hk : s.SegmentsKnown) (h : systemModel sys s = .ok o) (h' : systemModel sys (s.rename ρ) = .ok o') :
    o.Like (ρ.label s) o' := by
  obtain ⟨h1, h2, _, _⟩ := system_inv h
  obtain ⟨h1', h2', _, _⟩ := system_inv h'
  have hc : List.Forall₂ (fun x y : CompOut => ∃ c, x.Like (ρ.label s) ρ c y) o.comps o'.comps := by
    have key : ∀ {l : List Comp} {m m' : List CompOut}, (∀ c ∈ l, c ∈ s.comps) → List.Forall₂ (fun c oc => Comp.model sys c = .ok oc) l m →
        List.Forall₂ (fun c oc => Comp.model sys c = .ok oc) (l.map (Comp.rename ρ)) m' → List.Forall₂ (fun x y : CompOut => ∃ c, x.Like (ρ.label s) ρ c y) m m' := by
      intro l
      induction l with
      | nil => intro m m' _ a b; cases a; cases b; exact .nil
      | cons c l ih =>
        intro m m' hm a b
        cases a with
        | cons a1 a2 =>
          cases b with
          | cons b1 b2 =>
            obtain ⟨y, hy, k⟩ := (model_label (sys := sys) hρ hs hk (hm c (by simp))).inv a1
            rw [b1] at hy
            cases hy
            exact .cons ⟨_, k⟩ (ih (fun c hc => hm c (by simp [hc])) a2 b2)
    exact key (fun _ h => h) h1 h1'
  have fl : ∀ (g : CompOut → List (FlowData × FlowOut)), (∀ x y c, CompOut.Like (ρ.label s) ρ c x y → FlowsR (ρ.label s) ρ c (g x) (g y)) → ∀ b,
      busFlows (o'.comps.map g).flatten (ρ.bus b) = (busFlows (o.comps.map g).flatten b).map (Var.rn (ρ.label s)) := by
    intro g hg b
    refine busFlows_rn hρ.bus (forall₂_flatten ?_) b
    rw [List.forall₂_map_left_iff, List.forall₂_map_right_iff]
    refine hc.imp fun x y hxy => ?_
    obtain ⟨c, hxy⟩ := hxy
    exact (hg x y c hxy).imp fun q q' hq => ⟨by rw [hq.1]; rfl, hq.2.rate⟩
  have fi := fl (·.inputs) fun _ _ _ k => k.inputs
  have fo := fl (·.outputs) fun _ _ _ k => k.outputs
  refine ⟨hc.imp fun _ _ k => k.choose_spec.tree, ?_⟩
  have key : ∀ {l : List BusData} {m m' : List BusOut}, (∀ b ∈ l, b ∈ s.buses) →
      List.Forall₂ (fun b ob => busModel sys b (busFlows (o.comps.map (·.outputs)).flatten b.label) (busFlows (o.comps.map (·.inputs)).flatten b.label) = .ok ob) l m →
      List.Forall₂ (fun b ob => busModel sys b (busFlows (o'.comps.map (·.outputs)).flatten b.label) (busFlows (o'.comps.map (·.inputs)).flatten b.label) = .ok ob)
        (l.map (BusData.rename ρ.bus)) m' → List.Forall₂ (fun b b' : BusOut => b.tree.Like (ρ.label s) b'.tree) m m' := by
    intro l
    induction l with
    | nil => intro m m' _ a b; cases a; cases b; exact .nil
    | cons c l ih =>
      intro m m' hm a b
      cases a with
      | cons a1 a2 =>
        cases b with
        | cons b1 b2 =>
          have hb := hm c (by simp)
          have hto := label_to (ρ := ρ) (s := s) (.inl (hs.bus hb)) (full_bus hs hb)
          obtain ⟨y, hy, k⟩ := (bus_rn (sys := sys) hto _ _).inv a1
          rw [show (c.rename ρ.bus).label = ρ.bus c.label from rfl, fi, fo] at b1
          rw [b1] at hy
          cases hy
          exact .cons k (ih (fun c hc => hm c (by simp [hc])) a2 b2)
  exact key (fun _ h => h) h2 h2'

theorem SysOut.Like.labels {L : String → String} (h : o.Like L o') :
    (o'.comps.map CompOut.tree ++ o'.buses.map (·.tree)).flatMap MTree.labels = ((o.comps.map CompOut.tree ++ o.buses.map (·.tree)).flatMap MTree.labels).map L := by
  refine likeAll_labels (likeAll_iff.2 (List.rel_append ?_ ?_))
  · rw [List.forall₂_map_left_iff, List.forall₂_map_right_iff]
    exact h.comps
  · rw [List.forall₂_map_left_iff, List.forall₂_map_right_iff]
    exact h.buses

/-! ## Contributions -/

variable {L : String → String} {τ : Assignment}

theorem names_rename {es : List EffectData} {ε : String → String} (hε : Function.Injective ε) (l : String) (k : Option String) :
    names (es.map (EffectData.rename ε)) (ε l) (k.map ε) = names es l k := by
  cases k with
  | some e => simp [names, hε.eq_iff]
  | none =>
    unfold names
    dsimp only [Option.map_none]
    rw [List.find?_map]
    rw [show ((fun e : EffectData => e.isStandard) ∘ EffectData.rename ε) = fun e => e.isStandard from rfl]
    cases es.find? (·.isStandard) with
    | none => rfl
    | some e => simp [EffectData.rename, hε.eq_iff]

theorem effVal_rename {es : List EffectData} {ε : String → String} (hε : Function.Injective ε) (d : EffDict) (l : String) (t : Nat) :
    effVal (es.map (EffectData.rename ε)) (EffDict.rename ε d) (ε l) t = effVal es d l t := by
  unfold effVal EffDict.rename
  rw [List.filter_map, List.map_map]
  congr 2
  refine List.filter_congr fun q _ => ?_
  exact names_rename hε l q.1

theorem onOffOperation_rename {es : List EffectData} {ε : String → String} {E : String → Prop} (hε : Function.Injective ε) {el el' : String} (h : To L ε E el el') (q : Option OnOffParams) (dt : Nat → ℚ)
    (l : String) (t : Nat) : onOffOperation dt τ (es.map (EffectData.rename ε)) el' (q.map (OnOffParams.rename ε)) (ε l) t = onOffOperation dt (fun l => τ (L l)) es el q l t := by
  cases q with
  | none => rfl
  | some q =>
    unfold onOffOperation
    dsimp only [Option.map_some, OnOffParams.rename]
    rw [effVal_rename hε, effVal_rename hε, h.var3 (by decide +kernel), h.var3 (by decide +kernel)]

theorem investCost_rename {es : List EffectData} {ε : String → String} {E : String → Prop} (hε : Function.Injective ε) {el el' : String} (h : To L ε E el el') (q : InvestParams) (hq : q.SegIn E)
    (l : String) : investCost τ (es.map (EffectData.rename ε)) el' (q.rename ε) (ε l) = investCost (fun l => τ (L l)) es el q l := by
  have e1 : decision τ el' (q.rename ε) = decision (fun l => τ (L l)) el q := by
    have e : L (el ++ "__" ++ "Investment" ++ "_" ++ "isInvested") = _ := h.var4 (by decide +kernel)
    unfold decision
    dsimp only
    rw [e]
    rfl
  have e2 : segmentedCost τ el' (q.rename ε) (ε l) = segmentedCost (fun l => τ (L l)) el q l := by
    unfold segmentedCost
    rw [show (q.rename ε).effectsInSegments = q.effectsInSegments.map (fun x => (x.1, x.2.map fun r => (ε r.1, r.2))) from rfl]
    cases hs : q.effectsInSegments with
    | none => rfl
    | some x =>
      obtain ⟨xs, rs⟩ := x
      dsimp only [Option.map_some]
      rw [List.filter_map, List.map_map]
      have e : (rs.filter ((fun p : String × List (ℚ × ℚ) => decide (p.1 = ε l)) ∘ fun r => (ε r.1, r.2))) = rs.filter fun p => decide (p.1 = l) :=
        List.filter_congr fun r _ => by simp [hε.eq_iff]
      rw [e]
      refine congrArg List.sum (List.map_congr_left fun r hr => ?_)
      have := h.seg r.1 (hq xs rs hs r (List.mem_filter.1 hr).1)
      simp only [Function.comp_apply]
      rw [this]
  have e3 : L (el ++ "__" ++ "Investment" ++ "_" ++ "size") = _ := h.var4 (by decide +kernel)
  unfold investCost
  dsimp only
  rw [e1, e2, e3]
  simp only [InvestParams.rename]
  rw [effVal_rename hε, effVal_rename hε, effVal_rename hε]

theorem comp_rename_shape (c : Comp) : (c.rename ρ).label = ρ.comp c.label ∧ (c.rename ρ).inputs = c.inputs.map (FlowData.rename ρ c.label) ∧
    (c.rename ρ).outputs = c.outputs.map (FlowData.rename ρ c.label) ∧ (c.rename ρ).onOff = c.onOff.map (OnOffParams.rename ρ.effect) := by
  cases c with
  | plain d => exact ⟨rfl, rfl, rfl, rfl⟩
  | converter d => exact ⟨rfl, rfl, rfl, rfl⟩
  | storage t => exact ⟨rfl, rfl, rfl, rfl⟩
  | transmission t =>
    refine ⟨rfl, ?_, ?_, rfl⟩
    · simp only [Comp.rename, TransData.rename, Comp.inputs, List.map_cons]
      cases t.in2 <;> rfl
    · simp only [Comp.rename, TransData.rename, Comp.outputs, List.map_cons]
      cases t.out2 <;> rfl

theorem comp_rename_flows (c : Comp) : (c.rename ρ).flows = c.flows.map (FlowData.rename ρ c.label) := by
  unfold Comp.flows
  rw [(comp_rename_shape c).2.1, (comp_rename_shape c).2.2.1, List.map_append]

theorem comp_contrib {es : List EffectData} {E : String → Prop} (hρ : ρ.Injective) {c : Comp} (h : CompTo L ρ E c.label c.flows) (hq : ∀ s q, c = .storage s → s.capacity = .invest q → q.SegIn E)
    (dt : Nat → ℚ) (l : String) :
    (∀ t, (c.rename ρ).operation dt τ (es.map (EffectData.rename ρ.effect)) (ρ.effect l) t = c.operation dt (fun l => τ (L l)) es l t) ∧
    (c.rename ρ).investment τ (es.map (EffectData.rename ρ.effect)) (ρ.effect l) = c.investment (fun l => τ (L l)) es l := by
  obtain ⟨e1, _, _, e4⟩ := comp_rename_shape (ρ := ρ) c
  refine ⟨fun t => ?_, ?_⟩
  · unfold Comp.operation
    rw [comp_rename_flows, e1, e4, onOffOperation_rename hρ.effect h.own, List.map_map]
    congr 2
    refine List.map_congr_left fun f hf => ?_
    have hf' := h.flows f hf
    have er : L (rateL c.label f.label) = rateL (ρ.comp c.label) (ρ.flow c.label f.label) := hf'.var2 (by decide +kernel)
    simp only [Function.comp_apply]
    unfold flowOperation
    dsimp only
    rw [er]
    exact congrArg₂ (· + ·) (congrArg₂ (· * ·) (congrArg₂ (· * ·) (effVal_rename hρ.effect _ _ _) rfl) rfl) (onOffOperation_rename hρ.effect hf' f.onOff dt l t)
  · unfold Comp.investment
    rw [comp_rename_flows, e1, List.map_map]
    congr 1
    · refine congrArg List.sum (List.map_congr_left fun f hf => ?_)
      simp only [Function.comp_apply]
      unfold flowInvestment
      rw [show (f.rename ρ c.label).size = f.size.rename ρ.effect from rfl]
      cases hs : f.size with
      | unset => rfl
      | num x => rfl
      | invest q => exact investCost_rename hρ.effect (h.flows f hf) q (h.segs f hf q hs) l
    · cases c with
      | plain d => rfl
      | converter d => rfl
      | transmission t => rfl
      | storage t =>
        dsimp only [Comp.rename]
        unfold capacityInvestment
        rw [show (t.rename ρ).capacity = t.capacity.rename ρ.effect from rfl]
        cases hs : t.capacity with
        | num x => rfl
        | invest q => exact investCost_rename hρ.effect h.own q (hq t q rfl hs) l

theorem contribs_rename (hρ : ρ.Injective) (hs : s.Named) (hk : s.SegmentsKnown) (l : String) :
    (∀ t, (s.rename ρ).opOf sys τ (ρ.effect l) t = s.opOf sys (fun l => τ (ρ.label s l)) l t) ∧ (s.rename ρ).invOf τ (ρ.effect l) = s.invOf (fun l => τ (ρ.label s l)) l := by
  have each : ∀ c ∈ s.comps, _ := fun c hc => comp_contrib (τ := τ) (es := s.effects) hρ (compTo (ρ := ρ) hs hk hc) (fun t q ht hq xs rs e r hr => by
    obtain ⟨e', he, e⟩ := List.mem_map.1 ((hk c hc).2 t q ht hq xs rs e r hr)
    rw [← e]
    exact hs.effect he) sys.width l
  unfold System.opOf System.invOf System.rename
  dsimp only
  refine ⟨fun t => ?_, ?_⟩
  · rw [List.map_map]
    exact congrArg List.sum (List.map_congr_left fun c hc => (each c hc).1 t)
  · rw [List.map_map]
    exact congrArg List.sum (List.map_congr_left fun c hc => (each c hc).2)

/-! ## Totals -/

theorem balanced_rename {es : List EffectData} {ε : String → String} (hε : Function.Injective ε) {n : Nat} {T T' : Totals} {op op' : String → Nat → ℚ} {inv inv' : String → ℚ}
    (h1 : ∀ l, ∀ t, T'.op (ε l) t = T.op l t) (h2 : ∀ l, T'.inv (ε l) = T.inv l) (h3 : ∀ l, ∀ t < n, op' (ε l) t = op l t) (h4 : ∀ l, inv' (ε l) = inv l) :
    T'.Balanced (es.map (EffectData.rename ε)) n op' inv' ↔ T.Balanced es n op inv := by
  have fl : ∀ (d : List (String × Num)) (l : String) (g : Num → ℚ), (((d.map fun q => (ε q.1, q.2)).filter fun q => q.1 = ε l).map fun q => g q.2) = ((d.filter fun q => q.1 = l).map fun q => g q.2) := by
    intro d l g
    rw [List.filter_map, List.map_map]
    have : (d.filter ((fun q : String × Num => decide (q.1 = ε l)) ∘ fun q => (ε q.1, q.2))) = d.filter fun q => decide (q.1 = l) := List.filter_congr fun r _ => by simp [hε.eq_iff]
    rw [this]
    rfl
  unfold Totals.Balanced
  rw [List.forall_mem_map]
  refine forall₂_congr fun e _ => ?_
  simp only [EffectData.rename, List.map_map]
  refine and_congr (forall₂_congr fun t ht => ?_) ?_
  · rw [h1, h3 _ t ht]
    refine Eq.congr rfl (congrArg₂ _ rfl (congrArg List.sum (List.map_congr_left fun o _ => ?_)))
    refine (congrArg List.sum (fl o.shareOperation e.label fun q => q.at t * T'.op (ε o.label) t)).trans ?_
    rw [h1]
  · rw [h2, h4]
    refine Eq.congr rfl (congrArg₂ _ rfl (congrArg List.sum (List.map_congr_left fun o _ => ?_)))
    refine (congrArg List.sum (fl o.shareInvest e.label fun q => q.at 0 * T'.inv (ε o.label))).trans ?_
    rw [h2]

theorem allowed_rename {ε : String → String} {T T' : Totals} (h1 : ∀ l, ∀ t, T'.op (ε l) t = T.op l t) (h2 : ∀ l, T'.inv (ε l) = T.inv l) (e : EffectData) :
    T'.Allowed sys (e.rename ε) ↔ T.Allowed sys e := by
  have h3 : ∀ l, T'.opSum sys.n (ε l) = T.opSum sys.n l := fun l => Finset.sum_congr rfl fun t _ => h1 l t
  constructor
  · rintro ⟨a, b, c, d, e', f, g, h⟩
    simp only [EffectData.rename, h1, h2, h3] at a b c d e' f g h
    exact ⟨a, b, c, d, e', f, g, h⟩
  · rintro ⟨a, b, c, d, e', f, g, h⟩
    constructor <;> simp only [EffectData.rename, h1, h2, h3] <;> assumption

theorem fits_rename {n : Nat} (h : s.Fits n) : (s.rename ρ).Fits n := by
  have ser : ∀ {d : EffDict}, d.Series n → EffDict.Series n (EffDict.rename ρ.effect d) := by
    intro d hd q hq
    obtain ⟨p, hp, rfl⟩ := List.mem_map.1 hq
    exact hd p hp
  have sca : ∀ {d : EffDict}, d.Scalars → EffDict.Scalars (EffDict.rename ρ.effect d) := by
    intro d hd q hq
    obtain ⟨p, hp, rfl⟩ := List.mem_map.1 hq
    exact hd p hp
  have onf : ∀ {q : OnOffParams}, q.EffFits n → (q.rename ρ.effect).EffFits n := fun hq => ⟨ser hq.1, ser hq.2⟩
  have inf : ∀ {q : InvestParams}, q.EffFits → (q.rename ρ.effect).EffFits := fun hq => ⟨sca hq.1, sca hq.2.1, sca hq.2.2⟩
  refine ⟨fun e' he' => ?_, fun c' hc' => ?_, fun b' hb' pen hp => ?_⟩
  · obtain ⟨e, he, rfl⟩ := List.mem_map.1 he'
    have k := h.effects e he
    refine ⟨fun q hq => ?_, fun q hq => ?_, k.minH, k.maxH⟩
    · obtain ⟨p, hp, rfl⟩ := List.mem_map.1 hq
      exact k.op p hp
    · obtain ⟨p, hp, rfl⟩ := List.mem_map.1 hq
      exact k.inv p hp
  · obtain ⟨c, hc, rfl⟩ := List.mem_map.1 hc'
    have k := h.comps c hc
    refine ⟨fun f' hf' => ?_, fun q' hq' => ?_, fun t' q' ht' hq' => ?_⟩
    · rw [comp_rename_flows] at hf'
      obtain ⟨f, hf, rfl⟩ := List.mem_map.1 hf'
      have kf := k.flows f hf
      refine ⟨ser kf.op, fun q' hq' => ?_, fun q' hq' => ?_⟩
      · obtain ⟨q, hq, rfl⟩ := Option.map_eq_some_iff.1 hq'
        exact onf (kf.onOff q hq)
      · change f.size.rename ρ.effect = _ at hq'
        cases hs : f.size with
        | unset => rw [hs] at hq'; cases hq'
        | num x => rw [hs] at hq'; cases hq'
        | invest q => rw [hs] at hq'; cases hq'; exact inf (kf.invest q hs)
    · rw [(comp_rename_shape c).2.2.2] at hq'
      obtain ⟨q, hq, rfl⟩ := Option.map_eq_some_iff.1 hq'
      exact onf (k.onOff q hq)
    · cases c with
      | plain d => cases ht'
      | converter d => cases ht'
      | transmission d => cases ht'
      | storage t =>
        cases ht'
        change t.capacity.rename ρ.effect = _ at hq'
        cases hs : t.capacity with
        | num x => rw [hs] at hq'; cases hq'
        | invest q => rw [hs] at hq'; cases hq'; exact inf (k.invest t q rfl hs)
  · obtain ⟨b, hb, rfl⟩ := List.mem_map.1 hb'
    exact h.buses b hb pen hp

end Flix
