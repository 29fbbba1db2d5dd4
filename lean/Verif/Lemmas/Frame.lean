import Verif.Props.Closed
import Verif.Lemmas.Assign

/-! # Solutions only depend on the variables a model mentions; the labels of the effect collection -/

namespace Flix

theorem expr_label {sm : Summand} {i : Nat} {ts : List (ℚ × String × Nat)} (h : sm.expr i = .ok ts) : ∀ t ∈ ts, t.2.1 = sm.var.label := by
  have hterm : ∀ {j : Nat} {f : ℚ} {t : ℚ × String × Nat}, pyTerm sm.var j f = .ok t → t.2.1 = sm.var.label := by
    intro j f t ht
    unfold pyTerm at ht
    split at ht
    · cases ht; rfl
    · cases ht
  unfold Summand.expr at h
  split at h
  · intro t ht
    obtain ⟨j, _, hj⟩ := forall₂_mem_right (mapM_ok.1 h) ht
    peel hj with a, ha
    peel hj with b, hb
    exact hterm hj
  · split at h
    · peel h with a, ha
      peel h with b, hb
      peel h with c, hc
      cases h
      simpa using hterm hc
    · split at h
      · peel h with a, ha
        peel h with b, hb
        peel h with c, hc
        cases h
        simpa using hterm hc
      · peel h with a, ha
        peel h with b, hb
        peel h with c, hc
        cases h
        simpa using hterm hc

theorem termsVal_congr {σ τ : Assignment} {ts : List (ℚ × String × Nat)} (h : ∀ t ∈ ts, σ t.2.1 = τ t.2.1) : termsVal σ ts = termsVal τ ts := by
  unfold termsVal
  congr 1
  exact List.map_congr_left fun t ht => by rw [h t ht]

theorem conOk_congr {P : Var → Prop} {r : ConReq} (hr : r.Refs P) {σ τ : Assignment} (h : ∀ x, P x → σ x.label = τ x.label) : r.Ok σ → r.Ok τ := by
  rintro ⟨c, rows, hb, ht, hh⟩
  refine ⟨c, rows, hb, ht, fun row hrow => ?_⟩
  have hsm := build_summands hb hr
  have : termsVal τ row.terms = termsVal σ row.terms := by
    apply termsVal_congr
    unfold Constraint.translate at ht
    peel ht with cv, hcv
    obtain ⟨i, _, hi⟩ := forall₂_mem_right (mapM_ok.1 ht) hrow
    peel hi with tss, htss
    peel hi with rhs, hrhs
    simp only [except_pure, Except.ok.injEq] at hi
    subst hi
    intro t htm
    obtain ⟨l, hl, htl⟩ := List.mem_flatten.1 htm
    obtain ⟨sm, hs, he⟩ := forall₂_mem_right (mapM_ok.1 htss) hl
    rw [expr_label he t htl]
    exact (h _ (hsm sm hs)).symm
  have := hh row hrow
  unfold Row.Holds at this ⊢
  rwa [‹termsVal τ row.terms = termsVal σ row.terms›]

theorem varOk_congr {x : Var} {σ τ : Assignment} (h : σ x.label = τ x.label) : x.Ok σ → x.Ok τ := by
  rintro ⟨ds, hd, hh⟩
  exact ⟨ds, hd, by rw [← h]; exact hh⟩

theorem solves_iff_nodes (σ : Assignment) (t : MTree) : t.Solves σ ↔ ∀ m ∈ t.nodes, (∀ x ∈ m.vars, x.Ok σ) ∧ ∀ r ∈ m.cons, r.Ok σ := by
  have := solvesAll_nodes σ [t]
  simpa [MTree.SolvesAll, MTree.nodesAll] using this

/-- Solutions only depend on the variables of the model and those it mentions. -/
theorem solves_congr {P : Var → Prop} {t : MTree} (hv : t.Vars P) (hr : t.Refs P) {σ τ : Assignment} (h : ∀ x, P x → σ x.label = τ x.label) :
    t.Solves σ → t.Solves τ := by
  rw [solves_iff_nodes, solves_iff_nodes]
  intro hh m hm
  exact ⟨fun x hx => varOk_congr (h x (hv m hm x hx)) ((hh m hm).1 x hx), fun r hrm => conOk_congr (hr m hm r hrm) h ((hh m hm).2 r hrm)⟩

/-! ## Labels of the collection -/

/-- The labels of a model and its sub models. -/
def MTree.labels (t : MTree) : List String := (t.nodes.flatMap MTree.vars).map (·.label)

theorem labels_node (vs : List Var) (cs : List ConReq) (ss : List MTree) :
    (MTree.node vs cs ss).labels = vs.map (·.label) ++ ss.flatMap MTree.labels := by
  have key : ∀ ss : List MTree, ((MTree.nodesAll ss).flatMap MTree.vars).map (·.label) = ss.flatMap MTree.labels := by
    intro ss
    induction ss with
    | nil => rfl
    | cons s ss ih => simp [MTree.nodesAll, MTree.labels, ih, List.flatMap_append]
  unfold MTree.labels
  simp [MTree.nodes, List.flatMap_cons, MTree.vars, key]
  rfl

theorem singleShare_labels {el : String} {c : Share} {r : Var × MTree} (h : singleShare el c = .ok r) : r.2.labels = [shareLabel el c.name] := by
  unfold singleShare at h
  peel h with s, hs
  simp only [except_pure, Except.ok.injEq] at h
  subst h
  rw [labels_node]
  simp [(shareVar_ok hs).1]

theorem samTree_labels {d : SamData} {vs : SamVars} {calls : List Share} {tree : MTree} (h : samTree d vs calls = .ok tree) :
    tree.labels = vs.sum.label :: (vs.sumTS.map (·.label)).toList ++ calls.map fun c => shareLabel d.el c.name := by
  unfold samTree at h
  simp only at h
  peel h with shares, hsh
  have hl : (shares.map (·.2.2)).flatMap MTree.labels = calls.map fun c => shareLabel d.el c.name := by
    rw [mapM_ok] at hsh
    clear h
    induction hsh with
    | nil => rfl
    | cons hc _ ih =>
      peel hc with r, hr
      simp only [except_pure, Except.ok.injEq] at hc
      subst hc
      simp [singleShare_labels hr, ih]
  split at h
  · cases h
  · split at h
    · rename_i hts
      cases h
      rw [labels_node, hl, hts]
      simp
    · rename_i hts
      cases h
      rw [labels_node, hl, hts]
      simp

theorem forall₂_comp' {α β γ} {R : α → β → Prop} {S : β → γ → Prop} {T : α → γ → Prop} {l : List α} {m : List β} {r : List γ} (h1 : List.Forall₂ R l m)
    (h2 : List.Forall₂ S m r) (h : ∀ a b c, R a b → S b c → T a c) : List.Forall₂ T l r := by
  induction h1 generalizing r with
  | nil => cases h2; exact .nil
  | cons hd _ ih =>
    cases h2 with
    | cons hd' tl' => exact .cons (h _ _ _ hd hd') (ih tl')

/-- The variables of the collection with values: given totals, and values for the shares. -/
def collPairs (es : List EffectData) (evs : List EffectVars) (calls : List ShareCall) (inv opSum all : String → ℚ) (op : String → Nat → ℚ) (pen : ℚ)
    (w : Share → Nat → ℚ) : List (String × (Nat → ℚ)) :=
  (es.flatMap fun e =>
    (invSumL e.label, fun _ => inv e.label) :: ((invShares es evs calls e.label).map fun c => (shareLabel e.label c.name, w c)) ++
    ((opSumL e.label, fun _ => opSum e.label) :: (opTSL e.label, op e.label) ::
      ((opShares es evs calls e.label).map fun c => (shareLabel e.label c.name, w c)) ++
    [(allSumL e.label, fun _ => all e.label), (shareLabel e.label "operation", fun _ => opSum e.label), (shareLabel e.label "invest", fun _ => inv e.label)])) ++
  (penaltyL, fun _ => pen) :: (penaltyShares calls).map fun c => (shareLabel "Effects" c.name, w c)

theorem effectTree_labels {sys : Sys} {e : EffectData} {ev : EffectVars} (hs : EvShape sys e ev) {cs : List Addressed} {t : MTree} (h : effectTree cs ev = .ok t) :
    t.labels = invSumL e.label :: ((sharesFor .invest e.label cs).map fun c => shareLabel e.label c.name) ++
      (opSumL e.label :: opTSL e.label :: ((sharesFor .operation e.label cs).map fun c => shareLabel e.label c.name) ++
      [allSumL e.label, shareLabel e.label "operation", shareLabel e.label "invest"]) := by
  unfold effectTree at h
  peel h with i, hi
  peel h with op, ho
  peel h with a, ha
  simp only [except_pure, Except.ok.injEq] at h
  subst h
  obtain ⟨ts, t1, _, t3⟩ := hs.opTS
  rw [labels_node]
  simp only [List.map_nil, List.nil_append, List.flatMap_cons, List.flatMap_nil, List.append_nil]
  rw [samTree_labels hi, samTree_labels ho, samTree_labels ha, hs.invSum, hs.invTS, hs.opSum, t1, hs.allSum, hs.allTS, hs.data]
  simp [EffectData.invest, EffectData.operation, EffectData.all, t3]

theorem coll_labels {sys : Sys} (hv : sys.Valid) {es : List EffectData} {calls : List ShareCall} {o : CollOut} (h : collectionModel sys es calls = .ok o)
    (hf : ∀ e ∈ es, e.Fits sys.n) (inv opSum all : String → ℚ) (op : String → Nat → ℚ) (pen : ℚ) (w : Share → Nat → ℚ) :
    (collPairs es o.effects calls inv opSum all op pen w).map Prod.fst = o.tree.labels := by
  obtain ⟨between, addressed, trees, pt, h1, h2, h3, h4, h5, h6, h7, h8⟩ := collection_inv h
  have hsh : List.Forall₂ (EvShape sys) es o.effects := forall₂_imp' h1 fun e he ev hev => (effectVars_ok hv (hf e he) hev).1
  obtain ⟨p1, _, p3, _⟩ := penaltyVars_ok hv h2
  have hop : ∀ l, sharesFor .operation l (between.flatten ++ addressed) = opShares es o.effects calls l := by
    intro l
    rw [sharesFor_append, (sharesFor_between h3 l).1, sharesFor_addressed h5 (by decide)]
    rfl
  have hin : ∀ l, sharesFor .invest l (between.flatten ++ addressed) = invShares es o.effects calls l := by
    intro l
    rw [sharesFor_append, (sharesFor_between h3 l).2.1, sharesFor_addressed h5 (by decide)]
    rfl
  have hpe : sharesFor .penalty "" (between.flatten ++ addressed) = penaltyShares calls := by
    rw [sharesFor_append, (sharesFor_between h3 "").2.2, sharesFor_penalty h5]
    rfl
  have ht : List.Forall₂ (fun e t => t.labels = invSumL e.label :: ((invShares es o.effects calls e.label).map fun c => shareLabel e.label c.name) ++
      (opSumL e.label :: opTSL e.label :: ((opShares es o.effects calls e.label).map fun c => shareLabel e.label c.name) ++
      [allSumL e.label, shareLabel e.label "operation", shareLabel e.label "invest"])) es trees := by
    refine forall₂_comp' hsh h6 ?_
    intro e ev t hs he
    rw [effectTree_labels hs he, hop, hin]
  rw [h8, labels_node]
  simp only [List.map_nil, List.nil_append, List.flatMap_append, List.flatMap_cons, List.flatMap_nil, List.append_nil]
  rw [samTree_labels h7, p1, p3, hpe]
  unfold collPairs
  generalize opShares es o.effects calls = f1 at ht ⊢
  generalize invShares es o.effects calls = f2 at ht ⊢
  rw [List.map_append]
  congr 1
  · clear h hf h1 h5 hsh h3 hop hin h6 h8
    induction ht with
    | nil => rfl
    | cons hd _ ih =>
      rw [List.flatMap_cons, List.map_append, ih, List.flatMap_cons, hd]
      simp [Function.comp_def]
  · simp [Function.comp_def, penaltyData]

end Flix
