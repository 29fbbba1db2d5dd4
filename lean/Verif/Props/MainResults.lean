import Verif.Model.MainResults
import Verif.Props.Balance
import Verif.Lemmas.Registry

/-!
# C75: main results and warnings
-/

namespace Flix

/-! ## Specification -/

/-- The elements of a component for which a size is to be found: the storage itself, flows with an investment, and the second input of a
transmission whose first input has an investment. -/
def Comp.investLabels : Comp → List String
  | .plain c => ((c.inputs ++ c.outputs).filter (·.size.isInvest)).map fun f => c.label ++ "__" ++ f.label
  | .converter c => ((c.comp.inputs ++ c.comp.outputs).filter (·.size.isInvest)).map fun f => c.comp.label ++ "__" ++ f.label
  | .storage s => (match s.capacity with | .invest _ => [s.label] | .num _ => []) ++
      (([s.charging, s.discharging]).filter (·.size.isInvest)).map fun f => s.label ++ "__" ++ f.label
  | .transmission t => ([t.in1].filter (·.size.isInvest) ++ t.in2.toList.filter (fun f => f.size.isInvest || t.in1.size.isInvest) ++
      (t.out1 :: t.out2.toList).filter (·.size.isInvest)).map fun f => t.label ++ "__" ++ f.label

/-! ## Investments -/

theorem flow_invest_some {sys : Sys} {el : String} {f : FlowData} {o : FlowOut} (h : flowModel sys el f = .ok o) :
    o.invest.map (fun i => i.size.label) = if f.size.isInvest then some (el ++ "__" ++ "Investment" ++ "_" ++ "size") else none := by
  have h3 := (flow_inv h).2.2.1
  unfold flowInvest FlowData.effSize at h3
  cases hs : f.size with
  | unset => simp only [hs, Except.ok.injEq] at h3; rw [← h3]; simp [SizeArg.isInvest]
  | num x => simp only [hs, Except.ok.injEq] at h3; rw [← h3]; simp [SizeArg.isInvest]
  | invest q =>
    simp only [hs] at h3
    obtain ⟨i, hi, hio⟩ := map_ok.1 h3
    obtain ⟨_, _, _, _, hsz, _⟩ := invest_inv hi
    rw [← hio]
    simp [SizeArg.isInvest, (sizeVar_iff hsz).1]

theorem fillOnOff_size (c : CompData) (f : FlowData) : (fillOnOff c f).size = f.size ∧ (fillOnOff c f).label = f.label := by
  unfold fillOnOff
  split <;> exact ⟨rfl, rfl⟩

theorem fill_size (t : TransData) (f : FlowData) : (t.fill f).size = f.size ∧ (t.fill f).label = f.label := by
  unfold TransData.fill
  split
  · split <;> exact ⟨rfl, rfl⟩
  · exact ⟨rfl, rfl⟩

theorem fillIn2_size (cfg : Cfg) (t : TransData) (f : FlowData) : (t.fillIn2 cfg f).size.isInvest = (f.size.isInvest || t.in1.size.isInvest) ∧
    (t.fillIn2 cfg f).label = f.label := by
  unfold TransData.fillIn2
  cases h1 : t.in1.size <;> cases h2 : f.size <;> simp [SizeArg.isInvest, h2]

/-- The investments among the flows of a component. -/
theorem comp_investModels {sys : Sys} {c : CompData} {o : CompOut} (h : compModel sys c = .ok o) :
    (o.flows.filterMap fun q => q.2.invest.map fun i => (flowFull c.label q.1.label, i.size.label)) =
      (((c.inputs ++ c.outputs).filter (·.size.isInvest)).map fun f => c.label ++ "__" ++ f.label).map fun l => (l, l ++ "__" ++ "Investment" ++ "_" ++ "size") := by
  obtain ⟨h1, h2, _⟩ := comp_inv h
  have key : ∀ {fs : List FlowData} {qs : List (FlowData × FlowOut)}, List.Forall₂ (fun f q => q.1 = fillOnOff c f ∧ flowModel sys (flowFull c.label f.label) (fillOnOff c f) = .ok q.2) fs qs →
      (qs.filterMap fun q => q.2.invest.map fun i => (flowFull c.label q.1.label, i.size.label)) =
      ((fs.filter (·.size.isInvest)).map fun f => c.label ++ "__" ++ f.label).map fun l => (l, l ++ "__" ++ "Investment" ++ "_" ++ "size") := by
    intro fs qs hf
    induction hf with
    | nil => rfl
    | cons hd hh ih =>
      rename_i f q fs qs
      have hi := flow_invest_some hd.2
      rw [(fillOnOff_size c f).1] at hi
      rw [List.filterMap_cons, List.filter_cons]
      cases hq : q.2.invest with
      | none =>
        rw [hq] at hi
        cases hb : f.size.isInvest with
        | true => rw [hb] at hi; simp at hi
        | false => simpa using ih
      | some i =>
        rw [hq] at hi
        cases hb : f.size.isInvest with
        | false => rw [hb] at hi; simp at hi
        | true =>
          rw [hb] at hi
          simp only [Option.map_some, if_true, Option.some.injEq] at hi
          simp only [Option.map_some, if_true, List.map_cons, ih, hi, hd.1, (fillOnOff_size c f).2]
          rfl
  unfold CompOut.flows
  rw [List.filterMap_append, key h1, key h2, List.filter_append, List.map_append, List.map_append]

theorem model_investModels {sys : Sys} {c : Comp} {o : CompOut} (h : c.model sys = .ok o) :
    investModels c c.name o = c.investLabels.map fun l => (l, l ++ "__" ++ "Investment" ++ "_" ++ "size") := by
  cases c with
  | plain c => simpa [investModels, Comp.investLabels, Comp.name] using comp_investModels h
  | converter c =>
    change converterModel sys c = .ok o at h
    unfold converterModel at h
    peel h with o0, h0
    have hk := comp_investModels h0
    split at h
    · simp only [except_pure, Except.ok.injEq] at h
      subst h
      simpa [investModels, Comp.investLabels, Comp.name, CompOut.flows] using hk
    · peel h with pts, h1
      peel h with tree, h2
      simp only [except_pure, Except.ok.injEq] at h
      subst h
      simpa [investModels, Comp.investLabels, Comp.name, CompOut.flows] using hk
  | storage st =>
    obtain ⟨so, hso, rfl⟩ := map_ok.1 (show (·.comp) <$> storageModel sys st = .ok o from h)
    clear h
    unfold storageModel at hso
    peel hso with o0, h0
    peel hso with ab, hab
    obtain ⟨a, b⟩ := ab
    simp only at hso
    peel hso with c, hc
    peel hso with nd, hnd
    peel hso with cCharge, hcc
    peel hso with inv, hinv
    peel hso with cIF, hif
    simp only [except_pure, Except.ok.injEq] at hso
    subst hso
    have hk := comp_investModels h0
    unfold investModels
    simp only [CompOut.flows, Comp.name] at hk ⊢
    rw [show st.comp.label = st.label from rfl, show st.comp.inputs ++ st.comp.outputs = [st.charging, st.discharging] from rfl] at hk
    rw [hk]
    unfold Comp.investLabels
    cases hcap : st.capacity <;> simp [hcap]
  | transmission t =>
    obtain ⟨so, hso, rfl⟩ := map_ok.1 (show (·.comp) <$> transmissionModel sys t = .ok o from h)
    clear h
    unfold transmissionModel at hso
    peel hso with o0, h0
    peel hso with ab, hab
    obtain ⟨i1, i2, o1, o2⟩ := ab
    simp only at hso
    peel hso with c1, hc1
    peel hso with c2, hc2
    simp only [except_pure, Except.ok.injEq] at hso
    subst hso
    have hk := comp_investModels h0
    unfold investModels Comp.investLabels
    simp only [CompOut.flows, Comp.name, List.nil_append] at hk ⊢
    rw [show (t.comp sys.cfg).label = t.label from rfl] at hk
    rw [hk]
    congr 1
    have e1 : ∀ f : FlowData, t.label ++ "__" ++ (t.fill f).label = t.label ++ "__" ++ f.label := fun f => by rw [(fill_size t f).2]
    have e2 : ∀ f : FlowData, t.label ++ "__" ++ (t.fillIn2 sys.cfg (t.fill f)).label = t.label ++ "__" ++ f.label :=
      fun f => by rw [(fillIn2_size _ t _).2, (fill_size t f).2]
    have s1 : ∀ f : FlowData, (t.fill f).size.isInvest = f.size.isInvest := fun f => by rw [(fill_size t f).1]
    have s2 : ∀ f : FlowData, (t.fillIn2 sys.cfg (t.fill f)).size.isInvest = (f.size.isInvest || t.in1.size.isInvest) :=
      fun f => by rw [(fillIn2_size _ t _).1, s1]
    unfold TransData.comp
    cases h2 : t.in2 <;> cases h3 : t.out2 <;>
      simp only [Option.map_none, Option.map_some, Option.toList_none, Option.toList_some, List.cons_append, List.nil_append, List.append_nil,
        List.filter_cons, List.filter_nil, s1, s2] <;>
      (repeat' split) <;> simp [e1, e2]

/-! ## Different labels -/

/-- One label of every list of a family without repetitions. -/
theorem pick_nodup {α : Type} {xs : List α} {f : α → List String} {g : α → List String} (hn : (xs.flatMap f).Nodup)
    (hg : ∀ x ∈ xs, (g x).Nodup ∧ ∀ l ∈ g x, l ∈ f x) : (xs.flatMap g).Nodup := by
  induction xs with
  | nil => exact List.nodup_nil
  | cons x xs ih =>
    rw [List.flatMap_cons, List.nodup_append] at hn ⊢
    refine ⟨(hg x (by simp)).1, ih hn.2.1 fun y hy => hg y (by simp [hy]), ?_⟩
    intro a ha b hb
    obtain ⟨y, hy, hby⟩ := List.mem_flatMap.1 hb
    exact hn.2.2 a ((hg x (by simp)).2 a ha) b (List.mem_flatMap.2 ⟨y, hy, (hg y (by simp [hy])).2 b hby⟩)

theorem invest_tree_label {cfg : Cfg} {el : String} {q : InvestParams} {x : Var} {relMin relMax : Num} {profile : Option Num} {on : Option Var} {o : InvestOut}
    (h : investModel cfg el q x relMin relMax profile on = .ok o) : el ++ "__" ++ "Investment" ++ "_" ++ "size" ∈ o.tree.labels := by
  obtain ⟨_, _, _, _, hsz, _, hv, _⟩ := invest_inv h
  unfold InvestOut.tree
  rw [labels_node, hv]
  simp [(sizeVar_iff hsz).1]

theorem flow_tree_label {sys : Sys} {el : String} {f : FlowData} {o : FlowOut} (h : flowModel sys el f = .ok o) {i : InvestOut} (hi : o.invest = some i) :
    i.size.label ∈ o.tree.labels := by
  obtain ⟨_, _, h3, _, ht, _⟩ := flow_inv h
  rw [hi] at h3
  unfold flowInvest at h3
  split at h3
  · cases h3
  · obtain ⟨i', hi', hio⟩ := map_ok.1 h3
    cases hio
    obtain ⟨_, _, _, _, hsz, _, hv, _⟩ := invest_inv hi'
    rw [ht, labels_node, hi]
    refine List.mem_append_right _ (List.mem_flatMap.2 ⟨i.tree, by simp, ?_⟩)
    unfold InvestOut.tree
    rw [labels_node, hv]
    simp

theorem comp_size_labels {sys : Sys} {c : CompData} {o : CompOut} (h : compModel sys c = .ok o) (hn : (o.subs.flatMap MTree.labels).Nodup) :
    (o.flows.flatMap fun q => (q.2.invest.map fun i => i.size.label).toList).Nodup ∧
    ∀ l ∈ o.flows.flatMap (fun q => (q.2.invest.map fun i => i.size.label).toList), l ∈ (o.flows.map (·.2.tree)).flatMap MTree.labels := by
  obtain ⟨_, _, _, prev, _, _, _, hsub, _⟩ := comp_inv h
  have hmem : ∀ q ∈ o.flows, ((q.2.invest.map fun i => i.size.label).toList).Nodup ∧ ∀ l ∈ (q.2.invest.map fun i => i.size.label).toList, l ∈ q.2.tree.labels := by
    intro q hq
    obtain ⟨f, _, _, hf⟩ := comp_flow_mem h q hq
    cases hi : q.2.invest with
    | none => simp
    | some i => simpa using flow_tree_label hf hi
  rw [hsub, List.flatMap_append, List.flatMap_append] at hn
  have hn1 := (List.nodup_append.1 (List.nodup_append.1 hn).1).1
  rw [List.flatMap_map] at hn1
  refine ⟨pick_nodup hn1 hmem, ?_⟩
  intro l hl
  obtain ⟨q, hq, hlq⟩ := List.mem_flatMap.1 hl
  exact List.mem_flatMap.2 ⟨_, List.mem_map_of_mem hq, (hmem q hq).2 l hlq⟩

theorem filterMap_snd (label : String) (qs : List (FlowData × FlowOut)) :
    (qs.filterMap fun q => q.2.invest.map fun i => (flowFull label q.1.label, i.size.label)).map (·.2) =
      qs.flatMap fun q => (q.2.invest.map fun i => i.size.label).toList := by
  induction qs with
  | nil => rfl
  | cons q qs ih =>
    rw [List.filterMap_cons, List.flatMap_cons, ← ih]
    cases q.2.invest <;> simp

theorem model_size_labels {sys : Sys} {c : Comp} {o : CompOut} (h : c.model sys = .ok o) (hn : o.tree.labels.Nodup) :
    ((investModels c c.name o).map (·.2)).Nodup ∧ ∀ l ∈ (investModels c c.name o).map (·.2), l ∈ o.tree.labels := by
  unfold CompOut.tree at hn ⊢
  rw [labels_node] at hn ⊢
  have hns := (List.nodup_append.1 hn).2.1
  cases c with
  | plain c =>
    obtain ⟨a, b⟩ := comp_size_labels h hns
    simp only [investModels, List.nil_append, filterMap_snd]
    refine ⟨a, fun l hl => List.mem_append_right _ ?_⟩
    obtain ⟨_, _, _, prev, _, _, _, hsub, _⟩ := comp_inv h
    rw [hsub, List.flatMap_append, List.flatMap_append]
    exact List.mem_append_left _ (List.mem_append_left _ (b l hl))
  | converter c =>
    change converterModel sys c = .ok o at h
    unfold converterModel at h
    peel h with o0, h0
    obtain ⟨_, _, _, prev, _, _, _, hsub, _⟩ := comp_inv h0
    split at h
    · simp only [except_pure, Except.ok.injEq] at h
      subst h
      obtain ⟨a, b⟩ := comp_size_labels h0 hns
      simp only [investModels, List.nil_append, filterMap_snd]
      refine ⟨a, fun l hl => List.mem_append_right _ ?_⟩
      show l ∈ o0.subs.flatMap MTree.labels
      rw [hsub, List.flatMap_append, List.flatMap_append]
      exact List.mem_append_left _ (List.mem_append_left _ (b l hl))
    · peel h with pts, h1
      peel h with tree, h2
      simp only [except_pure, Except.ok.injEq] at h
      subst h
      simp only [List.flatMap_append] at hns
      obtain ⟨a, b⟩ := comp_size_labels h0 (List.nodup_append.1 hns).1
      simp only [investModels, List.nil_append, filterMap_snd]
      refine ⟨a, fun l hl => List.mem_append_right _ ?_⟩
      show l ∈ (o0.subs ++ [tree]).flatMap MTree.labels
      rw [hsub, List.flatMap_append, List.flatMap_append, List.flatMap_append]
      exact List.mem_append_left _ (List.mem_append_left _ (List.mem_append_left _ (b l hl)))
  | storage st =>
    obtain ⟨so, hso, rfl⟩ := map_ok.1 (show (·.comp) <$> storageModel sys st = .ok o from h)
    clear h
    unfold storageModel at hso
    peel hso with o0, h0
    peel hso with ab, hab
    obtain ⟨a, b⟩ := ab
    simp only at hso
    peel hso with c, hc
    peel hso with nd, hnd
    peel hso with cCharge, hcc
    peel hso with inv, hinv
    peel hso with cIF, hif
    simp only [except_pure, Except.ok.injEq] at hso
    subst hso
    simp only [List.flatMap_append] at hns
    obtain ⟨_, _, _, prev, _, _, _, hsub, _⟩ := comp_inv h0
    obtain ⟨a', b'⟩ := comp_size_labels h0 (List.nodup_append.1 hns).1
    have hb : ∀ l ∈ o0.flows.flatMap (fun q => (q.2.invest.map fun i => i.size.label).toList), l ∈ o0.subs.flatMap MTree.labels := by
      intro l hl
      rw [hsub, List.flatMap_append, List.flatMap_append]
      exact List.mem_append_left _ (List.mem_append_left _ (b' l hl))
    unfold investModels
    rw [List.map_append, filterMap_snd]
    unfold storageInvest at hinv
    cases hcap : st.capacity with
    | num x =>
      simp only [hcap, List.map_nil, List.nil_append]
      refine ⟨a', fun l hl => List.mem_append_right _ ?_⟩
      rw [List.flatMap_append]
      exact List.mem_append_left _ (hb l hl)
    | invest q =>
      rw [hcap] at hinv
      simp only at hinv
      obtain ⟨i, hi, hio⟩ := map_ok.1 hinv
      have hlab := invest_tree_label hi
      rw [← hio] at hns ⊢
      simp only [Option.map_some, Option.toList_some, List.flatMap_cons, List.flatMap_nil, List.append_nil] at hns
      simp only [hcap, List.map_cons, List.map_nil, List.cons_append, List.nil_append, Option.map_some, Option.toList_some]
      constructor
      · rw [List.nodup_cons]
        refine ⟨fun hm => ?_, a'⟩
        exact (List.nodup_append.1 hns).2.2 _ (hb _ hm) _ hlab rfl
      · intro l hl
        refine List.mem_append_right _ ?_
        rw [List.flatMap_append]
        rcases List.mem_cons.1 hl with rfl | hl
        · exact List.mem_append_right _ (by simpa using hlab)
        · exact List.mem_append_left _ (hb l hl)
  | transmission t =>
    obtain ⟨so, hso, rfl⟩ := map_ok.1 (show (·.comp) <$> transmissionModel sys t = .ok o from h)
    clear h
    unfold transmissionModel at hso
    peel hso with o0, h0
    peel hso with ab, hab
    obtain ⟨i1, i2, o1, o2⟩ := ab
    simp only at hso
    peel hso with c1, hc1
    peel hso with c2, hc2
    simp only [except_pure, Except.ok.injEq] at hso
    subst hso
    obtain ⟨a, b⟩ := comp_size_labels h0 hns
    simp only [investModels, List.nil_append, filterMap_snd]
    obtain ⟨_, _, _, prev, _, _, _, hsub, _⟩ := comp_inv h0
    refine ⟨a, fun l hl => List.mem_append_right _ ?_⟩
    show l ∈ o0.subs.flatMap MTree.labels
    rw [hsub, List.flatMap_append, List.flatMap_append]
    exact List.mem_append_left _ (List.mem_append_left _ (b l hl))

/-! ## The dictionaries -/

theorem investEntry_foldl (σ : Assignment) {qs : List (String × String)} (hn : (qs.map (·.1)).Nodup) :
    ∀ {a b : List (String × ℚ)}, (∀ q ∈ qs, q.1 ∉ a.map (·.1) ∧ q.1 ∉ b.map (·.1)) →
    qs.foldl (investEntry σ) (a, b) =
      (a ++ (qs.filter fun q => decide (1 / 1000 < σ q.2 0)).map (fun q => (q.1, σ q.2 0)), b ++ (qs.filter fun q => decide (¬ 1 / 1000 < σ q.2 0)).map (fun q => (q.1, σ q.2 0))) := by
  induction qs with
  | nil => intro a b _; simp
  | cons q qs ih =>
    intro a b hd
    rw [List.map_cons, List.nodup_cons] at hn
    obtain ⟨h1, h2⟩ := hd q (by simp)
    have hne : ∀ q' ∈ qs, q'.1 ≠ q.1 := fun q' hq' e => hn.1 (by rw [← e]; exact List.mem_map_of_mem hq')
    rw [List.foldl_cons]
    by_cases hc : 1 / 1000 < σ q.2 0
    · have e : investEntry σ (a, b) q = (a ++ [(q.1, σ q.2 0)], b) := by unfold investEntry; rw [if_pos hc, pySet_new h1]
      rw [e, ih hn.2, List.filter_cons_of_pos (by simpa using hc), List.filter_cons_of_neg (by simpa using hc)]
      · simp
      · intro q' hq'
        obtain ⟨g1, g2⟩ := hd q' (by simp [hq'])
        refine ⟨?_, g2⟩
        rw [List.map_append, List.mem_append, not_or]
        exact ⟨g1, by simpa using hne q' hq'⟩
    · have e : investEntry σ (a, b) q = (a, b ++ [(q.1, σ q.2 0)]) := by unfold investEntry; rw [if_neg hc, pySet_new h2]
      rw [e, ih hn.2, List.filter_cons_of_neg (by simpa using hc), List.filter_cons_of_pos (by simpa using hc)]
      · simp
      · intro q' hq'
        obtain ⟨g1, g2⟩ := hd q' (by simp [hq'])
        refine ⟨g1, ?_⟩
        rw [List.map_append, List.mem_append, not_or]
        exact ⟨g2, by simpa using hne q' hq'⟩

variable {sys : Sys} {s : System} {o : SysOut}

theorem system_investModels (h : systemModel sys s = .ok o) :
    ((s.comps.zip o.comps).flatMap fun q => investModels q.1 q.1.name q.2) =
      (s.comps.flatMap Comp.investLabels).map (fun l => (l, l ++ "__" ++ "Investment" ++ "_" ++ "size")) ∧ (s.comps.flatMap Comp.investLabels).Nodup := by
  obtain ⟨h1, _, _, _⟩ := system_inv h
  have hl := (List.nodup_append.1 (system_labels h)).2.1
  rw [List.flatMap_append] at hl
  have hl1 := (List.nodup_append.1 hl).1
  clear hl
  have e1 : ((s.comps.zip o.comps).flatMap fun q => investModels q.1 q.1.name q.2) =
      (s.comps.flatMap Comp.investLabels).map (fun l => (l, l ++ "__" ++ "Investment" ++ "_" ++ "size")) := by
    clear hl1 h
    generalize s.comps = cs at h1
    generalize o.comps = ocs at h1
    induction h1 with
    | nil => rfl
    | cons hd _ ih => rw [List.zip_cons_cons, List.flatMap_cons, ih, List.flatMap_cons, List.map_append, model_investModels hd]
  have e2 : (((s.comps.zip o.comps).flatMap fun q => investModels q.1 q.1.name q.2).map (·.2)).Nodup := by
    rw [List.map_flatMap]
    have hz : ∀ q ∈ s.comps.zip o.comps, q.1.model sys = .ok q.2 := by
      clear hl1 h e1
      generalize s.comps = cs at h1
      generalize o.comps = ocs at h1
      induction h1 with
      | nil => simp
      | cons hd _ ih =>
        intro q hq
        rw [List.zip_cons_cons] at hq
        rcases List.mem_cons.1 hq with rfl | hq
        · exact hd
        · exact ih q hq
    have hlen : s.comps.length = o.comps.length := h1.length_eq
    have hmap : (s.comps.zip o.comps).map (·.2) = o.comps := by
      rw [show (fun q : Comp × CompOut => q.2) = Prod.snd from rfl, List.map_snd_zip (le_of_eq hlen.symm)]
    have hl2 : ((s.comps.zip o.comps).flatMap fun q => q.2.tree.labels).Nodup := by
      have : ((s.comps.zip o.comps).flatMap fun q => q.2.tree.labels) = (o.comps.map CompOut.tree).flatMap MTree.labels := by
        conv_rhs => rw [← hmap, List.map_map, List.flatMap_map]
        rfl
      rw [this]
      exact hl1
    refine pick_nodup hl2 fun q hq => model_size_labels (hz q hq) ?_
    rw [List.nodup_flatMap] at hl2
    exact hl2.1 q hq
  refine ⟨e1, ?_⟩
  rw [e1, List.map_map] at e2
  exact e2.of_map _

/-- **C75.**  The main results of a solution: the penalty is what all buses cost, the objective is the total of the objective effect plus the
penalty; a bus is listed exactly if it allows excess and its excess supply or demand exceeds 1/1000 in total; every element with a size to be found
is listed exactly once, as invested if its size exceeds 1/1000 and as not invested otherwise. -/
theorem C75 (hv : sys.Valid) (hn : sys.n ≠ 0) (hf : s.Fits sys.n) (h : systemModel sys s = .ok o) (unit : String → String) {σ : Assignment}
    (hs : o.solver.Solves σ) :
    ∃ r e, mainResults sys unit σ s o = .ok r ∧ s.effects.find? (·.isObjective) = some e ∧
      r.penalty = (s.buses.map fun b => b.penaltyCost sys σ).sum ∧
      r.objective = σ (e.label ++ "__operation_operation_sum") 0 + σ (e.label ++ "__invest_invest_sum") 0 + r.penalty ∧
      r.busesWithExcess = (s.buses.filter fun b => b.excessPenalty.isSome &&
        (decide (1 / 1000 < ((List.range sys.n).map (σ (b.label ++ "_" ++ "excess_input"))).sum) ||
          decide (1 / 1000 < ((List.range sys.n).map (σ (b.label ++ "_" ++ "excess_output"))).sum))).map (·.label) ∧
      (s.comps.flatMap Comp.investLabels).Nodup ∧
      r.invested = ((s.comps.flatMap Comp.investLabels).filter fun l => decide (1 / 1000 < σ (l ++ "__" ++ "Investment" ++ "_" ++ "size") 0)).map
        (fun l => (l, σ (l ++ "__" ++ "Investment" ++ "_" ++ "size") 0)) ∧
      r.notInvested = ((s.comps.flatMap Comp.investLabels).filter fun l => decide (¬ 1 / 1000 < σ (l ++ "__" ++ "Investment" ++ "_" ++ "size") 0)).map
        (fun l => (l, σ (l ++ "__" ++ "Investment" ++ "_" ++ "size") 0)) := by
  obtain ⟨h1, h2, h3, h4⟩ := system_inv h
  obtain ⟨w, _⟩ := system_calls hv hf h
  obtain ⟨terms, e, ht, he, hval⟩ := C22_system hv hn hf h
  have hpl := (collection_iff hv hn h3 hf.effects w).2.1.1
  have hpen : σ o.coll.penalty.sum.label 0 = (s.buses.map fun b => b.penaltyCost sys σ).sum := by
    rw [hpl]
    exact C21_system_penalty hv hn hf h hs
  obtain ⟨i1, i2⟩ := system_investModels h
  have hkeys : (((s.comps.flatMap Comp.investLabels).map fun l => (l, l ++ "__" ++ "Investment" ++ "_" ++ "size")).map (·.1)).Nodup := by
    rw [List.map_map]
    simpa [Function.comp_def] using i2
  have hfold := investEntry_foldl σ hkeys (a := []) (b := []) (by simp)
  refine ⟨_, e, by unfold mainResults; rw [ht, ok_bind]; rfl, he, hpen, ?_, ?_, i2, ?_, ?_⟩
  · show termsVal σ terms = _ + σ o.coll.penalty.sum.label 0
    have hem : e ∈ s.effects := List.mem_of_find?_eq_some he
    rw [hval σ hs, hpen, (C21_system_invest hv hn hf h hs hem).2]
  · show busesWithExcess sys.n σ (s.buses.zip o.buses) = _
    have hpens := hf.buses
    have hin := fun l => (busFlows_all (σ := fun _ _ => 0) (n := sys.n) (t := 0) Comp.outputs (·.outputs) (forall₂_imp' h1 fun c _ oc h => (model_flowOf h).2) (bus := l)).2
    have hout := fun l => (busFlows_all (σ := fun _ _ => 0) (n := sys.n) (t := 0) Comp.inputs (·.inputs) (forall₂_imp' h1 fun c _ oc h => (model_flowOf h).1) (bus := l)).2
    clear hfold hkeys i1 i2 hpen hpl hval he ht w h4 h3 h1 hs h hf
    generalize s.buses = bs at h2 hpens
    generalize o.buses = obs at h2
    induction h2 with
    | nil => rfl
    | cons hd hh ih =>
      rename_i b ob bs obs
      unfold busesWithExcess at ih ⊢
      rw [List.zip_cons_cons, List.filterMap_cons, List.filter_cons, ih fun b hb => hpens b (by simp [hb])]
      cases hp : b.excessPenalty with
      | none => simp
      | some pen =>
        obtain ⟨ein, eout, f, x1, x2, l1, l2, _⟩ := bus_some hv hd hp (hpens b (by simp) pen hp) (hin _) (hout _)
        simp only [Option.isSome_some, Bool.true_and, x1, x2, exceeds, gt_iff_lt, l1, l2, excessInL, excessOutL]
        by_cases hc : (decide (1 / 1000 < (List.map (σ (b.label ++ "_" ++ "excess_input")) (List.range sys.n)).sum) ||
            decide (1 / 1000 < (List.map (σ (b.label ++ "_" ++ "excess_output")) (List.range sys.n)).sum)) = true
        · rw [if_pos hc, if_pos hc]; rfl
        · rw [if_neg hc, if_neg hc]
  · show (List.foldl (investEntry σ) ([], []) ((s.comps.zip o.comps).flatMap fun q => investModels q.1 q.1.name q.2)).1 = _
    rw [i1, hfold]
    simp only [List.nil_append, List.filter_map, List.map_map, Function.comp_def]
  · show (List.foldl (investEntry σ) ([], []) ((s.comps.zip o.comps).flatMap fun q => investModels q.1 q.1.name q.2)).2 = _
    rw [i1, hfold]
    simp only [List.nil_append, List.filter_map, List.map_map, Function.comp_def]

/-- **C75 (effects).**  If labels and units do not coincide by accident, every effect is listed with its operation, its investment and their sum. -/
theorem C75_effects_partial (hv : sys.Valid) (hn : sys.n ≠ 0) (hf : s.Fits sys.n) (h : systemModel sys s = .ok o) {unit : String → String} {σ : Assignment}
    (hs : o.solver.Solves σ) (hk : (s.effects.map fun e => e.label ++ " [" ++ unit e.label ++ "]").Nodup) {r : MainResults}
    (hr : mainResults sys unit σ s o = .ok r) :
    r.effects = s.effects.map fun e => (e.label ++ " [" ++ unit e.label ++ "]",
      ⟨σ (e.label ++ "__operation_operation_sum") 0, σ (e.label ++ "__invest_invest_sum") 0,
        σ (e.label ++ "__operation_operation_sum") 0 + σ (e.label ++ "__invest_invest_sum") 0⟩) := by
  obtain ⟨_, _, h3, _⟩ := system_inv h
  obtain ⟨w, _⟩ := system_calls hv hf h
  have hsh := (collection_iff hv hn h3 hf.effects w).1
  unfold mainResults at hr
  peel hr with terms, ht
  simp only [except_pure, Except.ok.injEq] at hr
  subst hr
  show pyUpdate [] (o.coll.effects.map (effectEntry unit σ)) = _
  have hall : ∀ e ∈ s.effects, σ (e.label ++ "__all_all_sum") 0 = σ (e.label ++ "__operation_operation_sum") 0 + σ (e.label ++ "__invest_invest_sum") 0 :=
    fun e he => (C21_system_invest hv hn hf h hs he).2
  have hmap : o.coll.effects.map (effectEntry unit σ) = s.effects.map fun e => (e.label ++ " [" ++ unit e.label ++ "]",
      ⟨σ (e.label ++ "__operation_operation_sum") 0, σ (e.label ++ "__invest_invest_sum") 0,
        σ (e.label ++ "__operation_operation_sum") 0 + σ (e.label ++ "__invest_invest_sum") 0⟩) := by
    clear hk h3 w ht h hs hf
    generalize s.effects = es at hsh hall
    generalize o.coll.effects = evs at hsh
    induction hsh with
    | nil => rfl
    | cons hd hh ih =>
      rename_i e ev es evs
      rw [List.map_cons, List.map_cons, ih fun e he => hall e (by simp [he])]
      congr 1
      unfold effectEntry effectKey
      rw [hd.data, hd.opSum, hd.invSum, hd.allSum]
      have := hall e (by simp)
      simp only [opSumL, invSumL, allSumL] at this ⊢
      rw [this]
  rw [hmap, pyUpdate_new, List.nil_append]
  rw [List.nil_append, List.map_map]
  exact hk

/-- What is missing in `C75_effects_partial`: two effects whose label and unit give the same key; only one of them is listed. -/
theorem C75_effects_wrong : ∃ (unit : String → String) (s : System) (o : SysOut) (r : MainResults), systemModel exSys s = .ok o ∧
    (∀ e ∈ s.effects, labelIsValid e.label = true) ∧ (s.effects.map (·.label)).Nodup ∧ mainResults exSys unit (fun _ _ => 0) s o = .ok r ∧
    r.effects.length < s.effects.length := by
  let unit : String → String := fun l => if l = "a" then "b] [c" else "c"
  let s : System := ⟨[{ label := "a", isStandard := true, isObjective := true }, { label := "a [b]" }], [], []⟩
  obtain ⟨o, h, hp⟩ := of_okB (p := fun o : SysOut => match mainResults exSys unit (fun _ _ => 0) s o with
    | .ok r => decide (r.effects.length < s.effects.length) | .error _ => false) (r := systemModel exSys s) (by decide +kernel)
  obtain ⟨r, hr, hl⟩ : ∃ r, mainResults exSys unit (fun _ _ => 0) s o = .ok r ∧ r.effects.length < s.effects.length := by
    revert hp
    cases mainResults exSys unit (fun _ _ => 0) s o with
    | error _ => intro hp; simp at hp
    | ok r => intro hp; exact ⟨r, rfl, by simpa using hp⟩
  refine ⟨unit, s, o, r, h, ?_, by decide +kernel, hr, hl⟩
  intro e he
  simp only [s, List.mem_cons, List.not_mem_nil, or_false] at he
  rcases he with rfl | rfl <;> decide +kernel

/-- **C75 (quiet).**  If `solve` warns about no bus, the penalty is small: at most 1/500 of the dearest step for every bus. -/
theorem C75_quiet (hv : sys.Valid) (hn : sys.n ≠ 0) (hf : s.Fits sys.n) (h : systemModel sys s = .ok o) {unit : String → String} {σ : Assignment}
    (hs : o.solver.Solves σ) {r : MainResults} (hr : mainResults sys unit σ s o = .ok r) {thr K : ℚ} (hq : warnedBuses thr r = [])
    (hK0 : 0 ≤ K) (hK : ∀ b ∈ s.buses, ∀ pen, b.excessPenalty = some pen → ∀ t < sys.n, pen.at t * sys.dt.getD t 0 ≤ K) :
    r.penalty ≤ s.buses.length * (K * (1 / 500)) := by
  obtain ⟨r', e, hr', he, hpen, _, hb, _⟩ := C75 hv hn hf h unit hs
  rw [hr] at hr'
  cases hr'
  unfold warnedBuses at hq
  rw [hb, List.map_eq_nil_iff, List.filter_eq_nil_iff] at hq
  rw [hpen]
  have each : ∀ b ∈ s.buses, b.penaltyCost sys σ ≤ K * (1 / 500) := by
    intro b hbm
    unfold BusData.penaltyCost
    cases hp : b.excessPenalty with
    | none => simp only; positivity
    | some pen =>
      simp only
      have hqb := hq b hbm
      rw [hp] at hqb
      simp only [Option.isSome_some, Bool.true_and, Bool.or_eq_true, decide_eq_true_eq, not_or, not_lt] at hqb
      have hc := (C27_system hv h hs hbm).2 pen hp (hf.buses b hbm pen hp)
      have sum_range : ∀ g : Nat → ℚ, ∑ t ∈ Finset.range sys.n, g t = ((List.range sys.n).map g).sum := fun g => (list_sum_range sys.n g).symm
      calc ∑ t ∈ Finset.range sys.n, pen.at t * sys.dt.getD t 0 * (σ (b.label ++ "_" ++ "excess_input") t + σ (b.label ++ "_" ++ "excess_output") t)
          ≤ ∑ t ∈ Finset.range sys.n, K * (σ (b.label ++ "_" ++ "excess_input") t + σ (b.label ++ "_" ++ "excess_output") t) := by
            refine Finset.sum_le_sum fun t ht => ?_
            obtain ⟨_, c2, c3⟩ := hc t (Finset.mem_range.1 ht)
            exact mul_le_mul_of_nonneg_right (hK b hbm pen hp t (Finset.mem_range.1 ht)) (by linarith)
        _ = K * (((List.range sys.n).map (σ (b.label ++ "_" ++ "excess_input"))).sum + ((List.range sys.n).map (σ (b.label ++ "_" ++ "excess_output"))).sum) := by
            rw [← Finset.mul_sum, Finset.sum_add_distrib, sum_range, sum_range]
        _ ≤ K * (1 / 500) := by
            refine mul_le_mul_of_nonneg_left ?_ hK0
            linarith [hqb.1, hqb.2]
  clear hq hb hpen he hr hs h hK hf
  generalize s.buses = bs at each ⊢
  induction bs with
  | nil => simp
  | cons b bs ih =>
    have h1 := each b (by simp)
    have h2 := ih fun b' hb' => each b' (by simp [hb'])
    simp only [List.map_cons, List.sum_cons, List.length_cons, Nat.cast_add, Nat.cast_one]
    linarith

/-- **C75 (warnings).**  `solve` warns about the total penalty exactly if what the excess of all buses costs exceeds 10, and it names a bus exactly
if that bus allows excess and its supply or demand exceeds 1/1000 in total. -/
theorem C75_warnings (hv : sys.Valid) (hn : sys.n ≠ 0) (hf : s.Fits sys.n) (h : systemModel sys s = .ok o) {unit : String → String} {σ : Assignment}
    (hs : o.solver.Solves σ) {r : MainResults} (hr : mainResults sys unit σ s o = .ok r) (thr : ℚ) :
    (warnsPenalty r = true ↔ 10 < (s.buses.map fun b => b.penaltyCost sys σ).sum) ∧
    ∀ l, l ∈ warnedBuses thr r ↔ ∃ b ∈ s.buses, b.label = l ∧ b.excessPenalty.isSome = true ∧
      (1 / 1000 < ∑ t ∈ Finset.range sys.n, σ (b.label ++ "_" ++ "excess_input") t ∨
        1 / 1000 < ∑ t ∈ Finset.range sys.n, σ (b.label ++ "_" ++ "excess_output") t) := by
  obtain ⟨r', e, hr', he, hpen, _, hb, _⟩ := C75 hv hn hf h unit hs
  rw [hr] at hr'
  cases hr'
  refine ⟨by rw [← hpen]; simp [warnsPenalty], fun l => ?_⟩
  unfold warnedBuses
  rw [hb]
  simp only [List.mem_map, List.mem_filter, Bool.and_eq_true, Bool.or_eq_true, decide_eq_true_eq, list_sum_range]
  constructor
  · rintro ⟨b, ⟨h1, h2, h3⟩, h4⟩; exact ⟨b, h1, h4, h2, h3⟩
  · rintro ⟨b, h1, h4, h2, h3⟩; exact ⟨b, ⟨h1, h2, h3⟩, h4⟩

/-- **C75 is wrong for the threshold of the warnings.**  `solve` promises a warning if the excess exceeds its parameter `excess_threshold`; the
parameter is not used: the same buses are reported for every threshold, for instance a bus with an excess of 1 although the threshold is 5. -/
theorem C75_threshold_wrong : ∃ o r, systemModel exSys exSystem = .ok o ∧ o.solver.Solves exSystemSol ∧ mainResults exSys (fun _ => "") exSystemSol exSystem o = .ok r ∧
    "heat" ∈ warnedBuses 5 r ∧ ((List.range exSys.n).map (exSystemSol "heat_excess_output")).sum = 1 ∧ ((List.range exSys.n).map (exSystemSol "heat_excess_input")).sum = 0 := by
  obtain ⟨o, h, hs⟩ := exSystem_ok
  obtain ⟨r, e, hr, _, _, _, hb, _⟩ := C75 exSys_valid (by decide) exSystem_fits h (fun _ => "") hs
  refine ⟨o, r, h, hs, hr, ?_, by decide +kernel, by decide +kernel⟩
  unfold warnedBuses
  rw [hb]
  decide +kernel

/-- The hypotheses are met by the example: the heat bus has excess, the boiler is invested in. -/
example : ∃ o r, systemModel exSys exSystem = .ok o ∧ o.solver.Solves exSystemSol ∧ mainResults exSys (fun _ => "€") exSystemSol exSystem o = .ok r ∧
    r.busesWithExcess = ["heat"] ∧ r.invested = [("Boiler__th", 10)] ∧ r.notInvested = [] ∧ r.penalty = 200 ∧
    (exSystem.effects.map fun e => e.label ++ " [" ++ "€" ++ "]").Nodup := by
  obtain ⟨o, h, hs⟩ := exSystem_ok
  obtain ⟨r, e, hr, _, hpen, _, hb, _, hi, hni⟩ := C75 exSys_valid (by decide) exSystem_fits h (fun _ => "€") hs
  refine ⟨o, r, h, hs, hr, ?_, ?_, ?_, ?_, by decide +kernel⟩
  · rw [hb]; decide +kernel
  · rw [hi]; decide +kernel
  · rw [hni]; decide +kernel
  · rw [hpen]; decide +kernel

end Flix
