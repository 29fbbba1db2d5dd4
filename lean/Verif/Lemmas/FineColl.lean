import Verif.Lemmas.FineComp
import Verif.Lemmas.Collection

/-!
# Models without exceptions, part 4: the effects
-/

namespace Flix

theorem perHour_good {sys : Sys} (hv : sys.Valid) {a : Option Num} (hf : ∀ m, a = some m → m.Fits sys.n) :
    ∃ r, perHour (.v sys.dt) a = .ok r ∧ FitsBound sys.n r := by
  cases a with
  | none => exact ⟨none, rfl, fitsBound_none _⟩
  | some m =>
    obtain ⟨c, h, hc⟩ := mul_good (hf m rfl) (dt_fits hv)
    refine ⟨some c, ?_, fitsBound_of hc⟩
    show some <$> Num.mul m (.v sys.dt) = _
    rw [h]; rfl

/-- The variables of a share allocation can be created and translated. -/
theorem samVars_good {sys : Sys} (hv : sys.Valid) {d : SamData}
    (hmin : ∀ m, d.minPerHour = some m → m.Fits sys.n) (hmax : ∀ m, d.maxPerHour = some m → m.Fits sys.n) :
    ∃ vs, samVars sys d = .ok vs ∧ vs.sum.Fine ∧ ∀ ts, vs.sumTS = some ts → ts.Fine := by
  unfold samVars
  rw [mkVar_free, ok_bind]
  obtain ⟨lb, h1, f1⟩ := perHour_good hv hmin
  obtain ⟨ub, h2, f2⟩ := perHour_good hv hmax
  have : ∃ ts, samTS sys d = .ok ts ∧ ∀ x, ts = some x → x.Fine := by
    unfold samTS
    split
    · rw [h1, ok_bind, h2, ok_bind, mkVar_free]
      refine ⟨_, rfl, ?_⟩
      intro x hx
      cases hx
      exact var_fine (fitsBound_none _) f1 f2
    · exact ⟨none, rfl, by simp⟩
  obtain ⟨ts, h3, f3⟩ := this
  rw [h3, ok_bind]
  exact ⟨_, rfl, var_fine (fitsBound_none _) (fitsBound_scalar _ _) (fitsBound_scalar _ _), f3⟩

/-- A share can be modelled and translated. -/
theorem share_good {el : String} {c : Share} {isTS : Bool} {n : Nat} (hn : 1 < n) (hw : c.WellFormed isTS n)
    (hs : c.asSum = true → ∀ x, c.var = some x → x.length ≠ 1) :
    singleShare el c = .ok (shareV el c, shareT el c) ∧ (shareT el c).Fine := by
  have h1 : ∃ s, shareVar el c = .ok s := by
    unfold shareVar
    cases hv : c.var with
    | none =>
      simp only
      rw [if_pos (by
        simp only [Share.WellFormed, hv] at hw
        cases ha : c.asSum with
        | true => exact Or.inl rfl
        | false => exact Or.inr (hw ha))]
      exact ⟨_, rfl⟩
    | some x =>
      simp only
      rw [if_neg (fun h => hs h.2 x hv h.1)]
      split
      · exact ⟨_, rfl⟩
      · rename_i hc
        simp only [not_or] at hc
        simp only [Share.WellFormed, hv] at hw
        have hx : x.length = n := by
          rcases hw with ⟨h, _⟩ | ⟨_, h, _⟩ | ⟨_, _, h, _⟩
          · exact absurd h hc.1
          · exact absurd h hc.2
          · exact h
        unfold Var.checkedTS
        rw [if_pos (by simp only; omega)]
        exact ⟨_, rfl⟩
  obtain ⟨s, hsv⟩ := h1
  have h2 : ∃ r, singleShare el c = .ok r := by
    unfold singleShare
    rw [hsv, ok_bind]
    exact ⟨_, rfl⟩
  obtain ⟨r, hr⟩ := h2
  refine ⟨by rw [hr, singleShare_eq hr], ?_⟩
  unfold shareT
  rw [fine_node]
  refine ⟨?_, ?_, by simp⟩
  · simp only [List.forall_mem_cons, List.not_mem_nil, false_imp_iff, implies_true, and_true]
    exact var_fine (fitsBound_none _) (fitsBound_none _) (fitsBound_none _)
  · simp only [List.forall_mem_cons, List.not_mem_nil, false_imp_iff, implies_true, and_true]
    cases hv : c.var with
    | none =>
      have hl1 : (shareV el c).length = 1 := by simp [shareV, Share.varLen, hv]
      refine con_fine 1 ?_
      show ∀ op ∈ [_, _], _
      simp only [List.forall_mem_cons, List.not_mem_nil, false_imp_iff, implies_true, and_true]
      refine ⟨good_sAll1 hl1 (by simp), good_const ?_⟩
      cases ha : c.asSum with
      | true => simp
      | false =>
        simp only [Share.WellFormed, hv] at hw
        left; simpa using hw ha
    | some x =>
      simp only [Share.WellFormed, hv] at hw
      rcases hw with ⟨ha, hf⟩ | ⟨ha, hx, hf, _⟩ | ⟨ha, _, hx, hf⟩
      · have hl1 : (shareV el c).length = 1 := by simp [shareV, Share.varLen, hv, ha]
        refine con_fine 1 ?_
        show ∀ op ∈ [_, _], _
        simp only [List.forall_mem_cons, List.not_mem_nil, false_imp_iff, implies_true, and_true, ha]
        exact ⟨good_sAll1 hl1 (by simp), good_sSum hf⟩
      · have hl1 : (shareV el c).length = 1 := by simp [shareV, Share.varLen, hv, ha, hx]
        refine con_fine 1 ?_
        show ∀ op ∈ [_, _], _
        simp only [List.forall_mem_cons, List.not_mem_nil, false_imp_iff, implies_true, and_true, ha]
        exact ⟨good_sAll1 hl1 (by simp), good_sAll1 hx (Or.inr hf)⟩
      · have hl1 : (shareV el c).length = n := by simp [shareV, Share.varLen, hv, ha, hx]
        refine con_fine n ?_
        show ∀ op ∈ [_, _], _
        simp only [List.forall_mem_cons, List.not_mem_nil, false_imp_iff, implies_true, and_true, ha]
        exact ⟨good_sAll hl1 (by simp), good_sAll hx hf⟩

/-- A share allocation can be modelled and translated. -/
theorem samTree_good {d : SamData} {vs : SamVars} {calls : List Share} {n : Nat} (hn : 1 < n) (hsum : vs.sum.length = 1)
    (hts : d.isTS = true → ∃ ts, vs.sumTS = some ts ∧ ts.length = n) (hts' : d.isTS = false → vs.sumTS = none)
    (hfs : vs.sum.Fine) (hft : ∀ ts, vs.sumTS = some ts → ts.Fine)
    (hw : ∀ c ∈ calls, c.WellFormed d.isTS n) (hs : ∀ c ∈ calls, c.asSum = true → ∀ x, c.var = some x → x.length ≠ 1)
    (hnd : (calls.map (·.name)).Nodup) : ∃ tree, samTree d vs calls = .ok tree ∧ tree.Fine := by
  have hsh : (calls.mapM fun c => do
      let r ← singleShare d.el c
      return (c, r.1, r.2)) = .ok (calls.map fun c => (c, shareV d.el c, shareT d.el c)) := by
    rw [mapM_ok]
    clear hnd
    induction calls with
    | nil => exact .nil
    | cons c calls ih =>
      refine .cons ?_ (ih (fun x hx => hw x (by simp [hx])) (fun x hx => hs x (by simp [hx])))
      rw [(share_good (el := d.el) hn (hw c (by simp)) (hs c (by simp))).1, ok_bind]
      rfl
  unfold samTree
  simp only [toSum_eq]
  rw [hsh, ok_bind, if_neg (by simpa using hnd)]
  have hsub : ∀ t ∈ (calls.map fun c => (c, shareV d.el c, shareT d.el c)).map (·.2.2), t.Fine := by
    intro t ht
    simp only [List.map_map, List.mem_map] at ht
    obtain ⟨c, hc, rfl⟩ := ht
    exact (share_good (el := d.el) hn (hw c hc) (hs c hc)).2
  have hg1 : ∀ op ∈ ((calls.map fun c => (c, shareV d.el c, shareT d.el c)).filterMap fun q =>
      if Share.inTotal d.isTS q.1 = true then some (sAll q.2.1 (.s 1)) else none), op.Good 1 := by
    intro op ho
    obtain ⟨q, hq, he⟩ := List.mem_filterMap.1 ho
    obtain ⟨c, hc, rfl⟩ := List.mem_map.1 hq
    split at he
    · rename_i ht
      cases he
      exact good_sAll1 ((varLen_wf (hw c hc)).1 ht) (by simp)
    · cases he
  have hgn : ∀ op ∈ ((calls.map fun c => (c, shareV d.el c, shareT d.el c)).filterMap fun q =>
      if Share.inTotal d.isTS q.1 = true then none else some (sAll q.2.1 (.s 1))), op.Good n := by
    intro op ho
    obtain ⟨q, hq, he⟩ := List.mem_filterMap.1 ho
    obtain ⟨c, hc, rfl⟩ := List.mem_map.1 hq
    split at he
    · cases he
    · rename_i ht
      cases he
      rcases (varLen_wf (hw c hc)).2 (by simpa using ht) with h | h
      · exact good_sAll1 h (by simp)
      · exact good_sAll h (by simp)
  cases hT : d.isTS with
  | false =>
    rw [hT] at hg1
    simp only [hts' hT]
    refine ⟨_, rfl, ?_⟩
    rw [fine_node]
    refine ⟨by simpa using hfs, ?_, hsub⟩
    simp only [List.forall_mem_cons, List.not_mem_nil, false_imp_iff, implies_true, and_true]
    refine con_fine 1 ?_
    intro op ho
    rcases List.mem_cons.1 ho with rfl | ho
    · exact good_sAll1 hsum (by simp)
    · exact hg1 op ho
  | true =>
    obtain ⟨ts, h1, h2⟩ := hts hT
    rw [hT] at hg1 hgn
    simp only [h1]
    refine ⟨_, rfl, ?_⟩
    rw [fine_node]
    refine ⟨by simpa using ⟨hfs, hft ts h1⟩, ?_, hsub⟩
    simp only [List.forall_mem_cons, List.not_mem_nil, false_imp_iff, implies_true, and_true]
    constructor
    · refine con_fine 1 ?_
      intro op ho
      rcases List.mem_cons.1 ho with rfl | ho
      · exact good_sAll1 hsum (by simp)
      rcases List.mem_cons.1 ho with rfl | ho
      · exact good_sSum (by simp)
      · exact hg1 op ho
    · refine con_fine n ?_
      intro op ho
      rcases List.mem_cons.1 ho with rfl | ho
      · exact good_sAll h2 (by simp)
      · exact hgn op ho

/-- The names of the shares of the two allocations of the effect `l` that take contributions. -/
def opNames (es : List EffectData) (calls : List ShareCall) (l : String) : List String :=
  (es.flatMap fun e => (e.shareOperation.filter fun q => q.1 = l).map fun _ => e.label ++ "_operation") ++
    (calls.filter (ShareCall.goesTo es .operation l)).map (·.name)
def invNames (es : List EffectData) (calls : List ShareCall) (l : String) : List String :=
  (es.flatMap fun e => (e.shareInvest.filter fun q => q.1 = l).map fun _ => e.label ++ "_invest") ++
    (calls.filter (ShareCall.goesTo es .invest l)).map (·.name)

theorem opShares_names {sys : Sys} {es₀ es : List EffectData} {evs : List EffectVars} (h : List.Forall₂ (EvShape sys) es evs) (calls : List ShareCall)
    (l : String) : (opShares es₀ evs calls l).map (·.name) =
      (es.flatMap fun e => (e.shareOperation.filter fun q => q.1 = l).map fun _ => e.label ++ "_operation") ++
        (calls.filter (ShareCall.goesTo es₀ .operation l)).map (·.name) := by
  unfold opShares othersOp
  rw [List.map_append]
  congr 1
  · induction h with
    | nil => rfl
    | cons he _ ih =>
      simp only [List.map_cons, List.flatten_cons, List.map_append, List.flatMap_cons, ih, List.map_map, he.data]
      congr 1
      refine List.map_congr_left fun q _ => ?_
      simp [opShare, he.data]
  · rw [List.map_map]; rfl

theorem invShares_names {sys : Sys} {es₀ es : List EffectData} {evs : List EffectVars} (h : List.Forall₂ (EvShape sys) es evs) (calls : List ShareCall)
    (l : String) : (invShares es₀ evs calls l).map (·.name) =
      (es.flatMap fun e => (e.shareInvest.filter fun q => q.1 = l).map fun _ => e.label ++ "_invest") ++
        (calls.filter (ShareCall.goesTo es₀ .invest l)).map (·.name) := by
  unfold invShares othersInv
  rw [List.map_append]
  congr 1
  · induction h with
    | nil => rfl
    | cons he _ ih =>
      simp only [List.map_cons, List.flatten_cons, List.map_append, List.flatMap_cons, ih, List.map_map, he.data]
      congr 1
      refine List.map_congr_left fun q _ => ?_
      simp [invShare, he.data]
  · rw [List.map_map]; rfl

/-- The effects can be modelled and translated: the shapes fit, contributions between effects go to known effects, there is an objective,
the calls can be addressed, and no two shares of an allocation have the same name. -/
theorem collection_good {sys : Sys} (hv : sys.Valid) (hn : 1 < sys.n) {es : List EffectData} {calls : List ShareCall}
    (hf : ∀ e ∈ es, e.Fits sys.n)
    (hbo : ∀ e ∈ es, ∀ q ∈ e.shareOperation, q.1 ∈ es.map (·.label)) (hbi : ∀ e ∈ es, ∀ q ∈ e.shareInvest, q.1 ∈ es.map (·.label))
    (hobj : ∃ e ∈ es, e.isObjective = true) (hw : ∀ c ∈ calls, c.WellFormed sys.n) (had : ∀ c ∈ calls, ∃ a, address es c = .ok a)
    (hs : ∀ c ∈ calls, c.asSum = true → ∀ x, c.var = some x → x.length ≠ 1)
    (hno : ∀ e ∈ es, (opNames es calls e.label).Nodup) (hni : ∀ e ∈ es, (invNames es calls e.label).Nodup)
    (hnp : ((calls.filter fun c => decide (c.target = .penalty)).map (·.name)).Nodup) :
    ∃ o, collectionModel sys es calls = .ok o ∧ o.tree.Fine := by
  have hne : sys.n ≠ 0 := by omega
  -- variables
  obtain ⟨evs, h1, s1⟩ := mapM_all (f := effectVars sys) (l := es)
      (P := fun e ev => effectVars sys e = .ok ev ∧ (ev.invest.sum.Fine ∧ ev.operation.sum.Fine ∧ ev.all.sum.Fine ∧ ∀ ts, ev.operation.sumTS = some ts → ts.Fine)) (by
    intro e he
    obtain ⟨i, a1, a2, _⟩ := samVars_good hv (d := e.invest) (by simp [EffectData.invest]) (by simp [EffectData.invest])
    obtain ⟨o, b1, b2, b3⟩ := samVars_good hv (d := e.operation) (hf e he).minH (hf e he).maxH
    obtain ⟨a, c1, c2, _⟩ := samVars_good hv (d := e.all) (by simp [EffectData.all]) (by simp [EffectData.all])
    have : effectVars sys e = .ok ⟨e, i, o, a⟩ := by
      unfold effectVars
      rw [a1, ok_bind, b1, ok_bind, c1, ok_bind]; rfl
    exact ⟨_, this, this, a2, b2, c2, b3⟩)
  have hsh : List.Forall₂ (EvShape sys) es evs := forall₂_imp' s1 fun e he ev hev => (effectVars_ok hv (hf e he) hev.1).1
  have hlab : evs.map (·.data.label) = es.map (·.label) := by
    clear h1 s1
    have hsh' : List.Forall₂ (fun (e : EffectData) (ev : EffectVars) => ev.data = e) es evs := forall₂_imp' hsh fun e _ ev h => h.data
    clear hsh hf hbo hbi hobj had hno hni
    induction hsh' with
    | nil => rfl
    | cons h _ ih => simp [h, ih]
  obtain ⟨pv, h2, p2, _⟩ := samVars_good hv (d := penaltyData) (by simp [penaltyData]) (by simp [penaltyData])
  obtain ⟨pl, pl1, pts, _⟩ := penaltyVars_ok hv h2
  obtain ⟨between, h3⟩ := mapM_good (f := betweenOf evs) (l := evs) (by
    intro ev hev
    obtain ⟨e, he, hd⟩ := forall₂_mem_right hsh hev
    unfold betweenOf
    simp only [hlab]
    obtain ⟨a, ha⟩ := mapM_good (l := ev.data.shareOperation) (f := fun q =>
      if q.1 ∈ es.map (·.label) then
        Except.ok (ε := Err) (⟨.operation, q.1, ⟨ev.data.label ++ "_operation", ev.operation.sumTS, q.2, false⟩⟩ : Addressed)
      else .error .key) (fun q hq => by
        rw [if_pos (hbo e he q (by rw [← hd.data]; exact hq))]; exact ⟨_, rfl⟩)
    obtain ⟨b, hb⟩ := mapM_good (l := ev.data.shareInvest) (f := fun q =>
      if q.1 ∈ es.map (·.label) then
        Except.ok (ε := Err) (⟨.invest, q.1, ⟨ev.data.label ++ "_invest", some ev.invest.sum, q.2, false⟩⟩ : Addressed)
      else .error .key) (fun q hq => by
        rw [if_pos (hbi e he q (by rw [← hd.data]; exact hq))]; exact ⟨_, rfl⟩)
    rw [ha, ok_bind, hb, ok_bind]
    exact ⟨_, rfl⟩)
  obtain ⟨obj, h4⟩ : ∃ obj, objectiveOps evs pv = .ok obj := by
    unfold objectiveOps objectiveOf
    cases hq : evs.find? (·.data.isObjective) with
    | some o => exact ⟨_, rfl⟩
    | none =>
      exfalso
      obtain ⟨e, he, ho⟩ := hobj
      obtain ⟨ev, hev, hd⟩ := forall₂_mem_left hsh he
      have := List.find?_eq_none.1 hq ev hev
      rw [hd.data] at this
      exact this ho
  obtain ⟨addressed, h5⟩ := mapM_good (f := address es) (l := calls) had
  have h3' := mapM_ok.1 h3
  have h5' := mapM_ok.1 h5
  have hop : ∀ l, sharesFor .operation l (between.flatten ++ addressed) = opShares es evs calls l := by
    intro l
    rw [sharesFor_append, (sharesFor_between h3' l).1, sharesFor_addressed h5' (by decide)]
    rfl
  have hin : ∀ l, sharesFor .invest l (between.flatten ++ addressed) = invShares es evs calls l := by
    intro l
    rw [sharesFor_append, (sharesFor_between h3' l).2.1, sharesFor_addressed h5' (by decide)]
    rfl
  have hpe : sharesFor .penalty "" (between.flatten ++ addressed) = penaltyShares calls := by
    rw [sharesFor_append, (sharesFor_between h3' "").2.2, sharesFor_penalty h5']
    rfl
  obtain ⟨trees, h6, f6⟩ := mapM_all (f := effectTree (between.flatten ++ addressed)) (l := evs) (P := fun _ t => t.Fine) (by
    intro ev hev
    obtain ⟨e, he, hd, g1, g2, g3, g4⟩ := forall₂_mem_right s1 hev
    obtain ⟨hs', _, _, _⟩ := effectVars_ok hv (hf e he) hd
    obtain ⟨ts, hts1, hts2, hts3⟩ := hs'.opTS
    have wfIn : ∀ c ∈ invShares es evs calls e.label, c.asSum = false ∧ c.WellFormed false sys.n := by
      intro c hc
      unfold invShares at hc
      rcases List.mem_append.1 hc with hc | hc
      · unfold othersInv at hc
        rw [List.mem_flatten] at hc
        obtain ⟨l', hl', hc⟩ := hc
        obtain ⟨ev', hev', rfl⟩ := List.mem_map.1 hl'
        obtain ⟨q, hq, rfl⟩ := List.mem_map.1 hc
        obtain ⟨e', he', hsh'⟩ := forall₂_mem_right hsh hev'
        have hqs := (hf e' he').inv q (by have := (List.mem_filter.1 hq).1; rwa [hsh'.data] at this)
        have : q.2.len = 1 := scalar_len hqs
        refine ⟨rfl, ?_⟩
        simp [invShare, Share.WellFormed, hsh'.invSum1, hqs, this]
      · obtain ⟨c', hc', rfl⟩ := List.mem_map.1 hc
        obtain ⟨hm, hg⟩ := List.mem_filter.1 hc'
        have := hw c' hm
        unfold ShareCall.WellFormed at this
        rw [goesTo_target hg] at this
        exact this
    have wfOp : ∀ c ∈ opShares es evs calls e.label, c.asSum = false ∧ c.WellFormed true sys.n := by
      intro c hc
      unfold opShares at hc
      rcases List.mem_append.1 hc with hc | hc
      · unfold othersOp at hc
        rw [List.mem_flatten] at hc
        obtain ⟨l', hl', hc⟩ := hc
        obtain ⟨ev', hev', rfl⟩ := List.mem_map.1 hl'
        obtain ⟨q, hq, rfl⟩ := List.mem_map.1 hc
        obtain ⟨e', he', hsh'⟩ := forall₂_mem_right hsh hev'
        have hqs := (hf e' he').op q (by have := (List.mem_filter.1 hq).1; rwa [hsh'.data] at this)
        obtain ⟨ts', hts1', hts2', _⟩ := hsh'.opTS
        refine ⟨rfl, ?_⟩
        simp [opShare, Share.WellFormed, hts1', hts2', hqs]
      · obtain ⟨c', hc', rfl⟩ := List.mem_map.1 hc
        obtain ⟨hm, hg⟩ := List.mem_filter.1 hc'
        have := hw c' hm
        unfold ShareCall.WellFormed at this
        rw [goesTo_target hg] at this
        exact this
    have no : ∀ {c : Share}, c.asSum = false → c.asSum = true → ∀ x, c.var = some x → x.length ≠ 1 := by
      intro c h h'; rw [h] at h'; cases h'
    obtain ⟨ti, ei, fi⟩ := samTree_good (d := e.invest) (vs := ev.invest) hn hs'.invSum1 (by simp [EffectData.invest]) (fun _ => hs'.invTS) g1
      (by rw [hs'.invTS]; simp) (fun c hc => (wfIn c hc).2) (fun c hc => no (wfIn c hc).1) (by
        rw [invShares_names hsh]; exact hni e he)
    obtain ⟨tO, eo, fo⟩ := samTree_good (d := e.operation) (vs := ev.operation) hn hs'.opSum1 (fun _ => ⟨ts, hts1, hts2⟩) (by simp [EffectData.operation]) g2
      g4 (fun c hc => (wfOp c hc).2) (fun c hc => no (wfOp c hc).1) (by
        rw [opShares_names hsh]; exact hno e he)
    obtain ⟨ta, ea, fa⟩ := samTree_good (d := e.all) (vs := ev.all)
      (calls := [⟨"operation", some ev.operation.sum, .s 1, false⟩, ⟨"invest", some ev.invest.sum, .s 1, false⟩]) hn hs'.allSum1
      (by simp [EffectData.all]) (fun _ => hs'.allTS) g3 (by rw [hs'.allTS]; simp) (by
        intro c hc
        simp only [List.mem_cons, List.not_mem_nil, or_false] at hc
        rcases hc with rfl | rfl
        · simp [Share.WellFormed, hs'.opSum1, Num.len, Num.isScalar]
        · simp [Share.WellFormed, hs'.invSum1, Num.len, Num.isScalar]) (by
        intro c hc
        simp only [List.mem_cons, List.not_mem_nil, or_false] at hc
        rcases hc with rfl | rfl <;> simp) (by
        show ["operation", "invest"].Nodup
        decide)
    refine ⟨.node [] [] [ti, tO, ta], ?_, ?_⟩
    · unfold effectTree
      rw [hs'.data, hop, hin, ei, ok_bind, eo, ok_bind, ea, ok_bind]; rfl
    · rw [fine_node]
      refine ⟨by simp, by simp, ?_⟩
      simp only [List.forall_mem_cons, List.not_mem_nil, false_imp_iff, implies_true, and_true]
      exact ⟨fi, fo, fa⟩)
  have wfPe : ∀ c ∈ penaltyShares calls, c.WellFormed false sys.n ∧ (c.asSum = true → ∀ x, c.var = some x → x.length ≠ 1) := by
    intro c hc
    unfold penaltyShares at hc
    obtain ⟨c', hc', rfl⟩ := List.mem_map.1 hc
    obtain ⟨hm, hg⟩ := List.mem_filter.1 hc'
    have := hw c' hm
    unfold ShareCall.WellFormed at this
    rw [of_decide_eq_true hg] at this
    exact ⟨this.2, hs c' hm⟩
  obtain ⟨pt, h7, f7⟩ := samTree_good (d := penaltyData) (vs := pv) (calls := penaltyShares calls) hn pl1 (by simp [penaltyData]) (fun _ => pts) p2
    (by rw [pts]; simp) (fun c hc => (wfPe c hc).1) (fun c hc => (wfPe c hc).2) (by
      unfold penaltyShares
      rw [List.map_map]; exact hnp)
  refine ⟨{ effects := evs, penalty := pv, objective := obj, tree := .node [] [] (trees ++ [pt]) }, ?_, ?_⟩
  · unfold collectionModel
    rw [h1, ok_bind, h2, ok_bind, h3, ok_bind, h4, ok_bind, h5, ok_bind]
    simp only [hpe]
    rw [h6, ok_bind, h7, ok_bind]; rfl
  · show (MTree.node [] [] (trees ++ [pt])).Fine
    rw [fine_node]
    refine ⟨by simp, by simp, ?_⟩
    intro s hs
    rcases List.mem_append.1 hs with hs | hs
    · obtain ⟨_, _, hx⟩ := forall₂_mem_right f6 hs
      exact hx
    · rw [List.mem_singleton] at hs
      subst hs; exact f7

end Flix
