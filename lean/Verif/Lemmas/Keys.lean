import Verif.Lemmas.Names
import Verif.Lemmas.Frame
import Verif.Lemmas.SegShares
import Verif.Lemmas.Contrib
import Verif.Props.Order

/-! # The labels of every model are labels of pairwise different keys -/

namespace Flix

/-- The list are the images of pairwise different keys with a property. -/
def KL {κ β : Type} (f : κ → β) (P : κ → Prop) (ls : List β) : Prop := ∃ ks : List κ, ls = ks.map f ∧ ks.Nodup ∧ ∀ k ∈ ks, P k

theorem KL.nil {κ β : Type} {f : κ → β} {P : κ → Prop} : KL f P [] := ⟨[], rfl, List.nodup_nil, by simp⟩

theorem KL.mono {κ β : Type} {f : κ → β} {P Q : κ → Prop} {ls : List β} (h : KL f P ls) (hpq : ∀ k, P k → Q k) : KL f Q ls := by
  obtain ⟨ks, h1, h2, h3⟩ := h
  exact ⟨ks, h1, h2, fun k hk => hpq k (h3 k hk)⟩

theorem KL.append {κ β : Type} {f : κ → β} {P Q R : κ → Prop} {a b : List β} (ha : KL f P a) (hb : KL f Q b) (hd : ∀ k, P k → Q k → False)
    (hp : ∀ k, P k → R k) (hq : ∀ k, Q k → R k) : KL f R (a ++ b) := by
  obtain ⟨ks, h1, h2, h3⟩ := ha
  obtain ⟨ks', h1', h2', h3'⟩ := hb
  refine ⟨ks ++ ks', by rw [h1, h1', List.map_append], List.nodup_append.2 ⟨h2, h2', ?_⟩, ?_⟩
  · rintro k hk k' hk' rfl
    exact hd k (h3 k hk) (h3' k hk')
  · intro k hk
    rcases List.mem_append.1 hk with h | h
    · exact hp k (h3 k h)
    · exact hq k (h3' k h)

theorem KL.flatMap {κ α β : Type} {f : κ → β} {P : α → κ → Prop} {g : α → List β} {l : List α} (h : ∀ a ∈ l, KL f (P a) (g a))
    (hd : l.Pairwise fun a b => ∀ k, P a k → P b k → False) : KL f (fun k => ∃ a ∈ l, P a k) (l.flatMap g) := by
  induction l with
  | nil => exact KL.nil
  | cons a l ih =>
    rw [List.flatMap_cons]
    rw [List.pairwise_cons] at hd
    refine KL.append (h a (by simp)) (ih (fun b hb => h b (by simp [hb])) hd.2) ?_ (fun k hk => ⟨a, by simp, hk⟩)
      (fun k ⟨b, hb, hk⟩ => ⟨b, by simp [hb], hk⟩)
    rintro k hk ⟨b, hb, hk'⟩
    exact hd.1 b hb k hk hk'

theorem KL.nodup {κ β : Type} {f : κ → β} {P : κ → Prop} {ls : List β} (h : KL f P ls) (hi : ∀ k k', P k → P k' → f k = f k' → k = k') : ls.Nodup := by
  obtain ⟨ks, rfl, h2, h3⟩ := h
  exact h2.map_on fun a ha b hb hab => hi a b (h3 a ha) (h3 b hb) hab

/-! ## Classes of keys -/

def VT.cls : VT → Nat
  | .plain s => if s ∈ onVarSufs then 1 else if s ∈ ["_flow_rate", "_sumFlowHours"] then 0 else
      if s ∈ ["__Investment_size", "__Investment_isInvested"] then 2 else if s ∈ ["_charge_state", "_netto_discharge"] then 3 else
      if s ∈ excessSufs then 4 else 5
  | .seg _ => 2
  | .segm _ _ => 6
  | .share _ _ => 7
  | .other _ _ => 7
  | .total _ => 8
  | .pen _ _ => 9

def CT.cls : CT → Nat
  | .plain s => if s ∈ onConSufs then 1 else if s ∈ ["_sumFlowHours", "_load_factor_max", "_load_factor_min"] then 0 else
      if s ∈ ["__Investment_is_invested", "__Investment_is_invested_ub", "__Investment_is_invested_lb"] then 2 else
      if s = "__MultipleSegments_in_single_Segment" then 6 else if s = "__PreventSimultaneousUsage_prevent_simultaneous_use" then 4 else
      if s ∈ ["_charge_state", "_netto_discharge", "_eq_final_charge_state_max", "_eq_charge_state_end_min"] then 3 else
      if s ∈ ["_direction_1", "_direction_2", "_equal_size_in_both_directions"] then 9 else 5
  | .twice m _ => if m = "__OnOff_" then 1 else if m ∈ invMids then 2 else 6
  | .lam _ => 6
  | .segLam _ => 6
  | .segm _ => 6
  | .init => 3
  | .conv _ => 8
  | .share t => 10 + t.cls

/-- Keys of one element that belong to some classes. -/
structure VIn (el : String) (cs : List Nat) (k : String × VT) : Prop where
  el : k.1 = el
  occurs : k.2.Occurs k.1
  cls : k.2.cls ∈ cs

structure CIn (el : String) (cs : List Nat) (k : String × CT) : Prop where
  el : k.1 = el
  occurs : k.2.Occurs k.1
  cls : k.2.cls ∈ cs

theorem VIn.mono {el : String} {cs cs' : List Nat} {k : String × VT} (h : VIn el cs k) (hs : cs ⊆ cs' := by decide) : VIn el cs' k :=
  ⟨h.el, h.occurs, hs h.cls⟩

theorem CIn.mono {el : String} {cs cs' : List Nat} {k : String × CT} (h : CIn el cs k) (hs : cs ⊆ cs' := by decide) : CIn el cs' k :=
  ⟨h.el, h.occurs, hs h.cls⟩

theorem VIn.apart {el el' : String} {cs cs' : List Nat} {k : String × VT} (h : VIn el cs k) (h' : VIn el' cs' k)
    (hs : ∀ i ∈ cs, i ∉ cs' := by decide) : False := hs _ h.cls h'.cls

theorem CIn.apart {el el' : String} {cs cs' : List Nat} {k : String × CT} (h : CIn el cs k) (h' : CIn el' cs' k)
    (hs : ∀ i ∈ cs, i ∉ cs' := by decide) : False := hs _ h.cls h'.cls

theorem vkl {el : String} {cs : List Nat} {ls : List String} (ts : List VT) (hl : ls = ts.map fun t => vlabel (el, t)) (hn : ts.Nodup)
    (h : ∀ t ∈ ts, t.Occurs el ∧ t.cls ∈ cs) : KL vlabel (VIn el cs) ls := by
  refine ⟨ts.map fun t => (el, t), by rw [hl, List.map_map]; rfl, hn.map fun a b h => (Prod.mk.inj h).2, ?_⟩
  intro k hk
  obtain ⟨t, ht, rfl⟩ := List.mem_map.1 hk
  exact ⟨rfl, (h t ht).1, (h t ht).2⟩

theorem ckl {el : String} {cs : List Nat} {ls : List String} (ts : List CT) (hl : ls = ts.map fun t => clabel (el, t)) (hn : ts.Nodup)
    (h : ∀ t ∈ ts, t.Occurs el ∧ t.cls ∈ cs) : KL clabel (CIn el cs) ls := by
  refine ⟨ts.map fun t => (el, t), by rw [hl, List.map_map]; rfl, hn.map fun a b h => (Prod.mk.inj h).2, ?_⟩
  intro k hk
  obtain ⟨t, ht, rfl⟩ := List.mem_map.1 hk
  exact ⟨rfl, (h t ht).1, (h t ht).2⟩

/-- Some of the plain keys of a list. -/
theorem vplain {el : String} {c : Nat} {ls : List String} (hel : IsFull el) (L : List String) {sub : List String} (hs : sub.Sublist L)
    (hl : ls = sub.map (el ++ ·)) (hn : L.Nodup) (h : ∀ s ∈ L, s ∈ plainVarSufs ∧ (VT.plain s).cls = c) : KL vlabel (VIn el [c]) ls := by
  refine vkl (sub.map VT.plain) (by rw [hl, List.map_map]; rfl) ((hs.nodup hn).map fun a b h => by cases h; rfl) ?_
  intro t ht
  obtain ⟨s, hs', rfl⟩ := List.mem_map.1 ht
  obtain ⟨h1, h2⟩ := h s (hs.subset hs')
  exact ⟨⟨hel, h1⟩, by simp [h2]⟩

theorem csub {el : String} {cs : List Nat} {ls : List String} (L : List CT) {sub : List CT} (hs : sub.Sublist L) (hl : ls = sub.map fun t => clabel (el, t))
    (hn : L.Nodup) (h : ∀ t ∈ L, t.Occurs el ∧ t.cls ∈ cs) : KL clabel (CIn el cs) ls :=
  ckl sub hl (hs.nodup hn) fun t ht => h t (hs.subset ht)

theorem occurs_plain {el : String} (hel : IsFull el) {s : String} (hs : s ∈ plainConSufs) (hc : s ≠ "_charge_state") : (CT.plain s).Occurs el :=
  ⟨hel, hs, fun h => absurd h hc⟩

/-- The labels of an optional list of constraints. -/
theorem lit2 {a b c : String} (h : a ++ b = c) (x : String) : a ++ (b ++ x) = c ++ x := by rw [← String.append_assoc, h]

/-! ## On/off -/

theorem off_keys {sys : Sys} {el : String} {q : OnOffParams} {on : Var} {prevOn : List ℚ} {off : Option (Var × List ConReq)}
    (h : offOpt sys (ooP el) q on prevOn = .ok off) :
    ∃ (vs : List String) (cs : List CT), vs.Sublist ["__OnOff_off"] ∧ cs.Sublist [CT.plain "__OnOff_var_off"] ∧
      (off.map (·.1)).toList.map (·.label) = vs.map (el ++ ·) ∧ ((off.map (·.2)).getD []).map (·.label) = cs.map fun t => clabel (el, t) := by
  unfold offOpt at h
  split at h
  · obtain ⟨r, hr, hr'⟩ := map_ok.1 h
    subst hr'
    unfold offPart at hr
    peel hr with x, hx
    simp only [except_pure, Except.ok.injEq] at hr
    subst hr
    refine ⟨_, _, List.Sublist.refl _, List.Sublist.refl _, ?_, ?_⟩
    · simp [(mkVar_ok hx).1, ooP, String.append_assoc]
    · simp [mkEq, ooP, clabel, CT.pre, CT.suf, String.append_assoc]
  · cases h
    exact ⟨[], [], List.nil_sublist _, List.nil_sublist _, rfl, rfl⟩

theorem duration_keys {sys : Sys} {el label : String} {binary : Var} {minD maxD : Option Num} {r : Var × List ConReq}
    (h : getDuration sys (ooP el) label binary minD maxD = .ok r) :
    r.1.label = el ++ ("__OnOff_" ++ label) ∧ ∃ cs : List String, cs.Sublist ["_constraint_1", "_constraint_2a", "_constraint_2b", "_minimum_duration",
        "_minimum_duration_inital", "_initial"] ∧
      r.2.map (·.label) = cs.map fun s => el ++ "__OnOff_" ++ (el ++ ("__OnOff_" ++ label)) ++ s := by
  unfold getDuration at h
  peel h with prev, h1
  peel h with dur, h2
  peel h with dt0, h3
  peel h with c3, h4
  simp only [except_pure, Except.ok.injEq] at h
  subst h
  have hd : dur.label = el ++ ("__OnOff_" ++ label) := by
    rw [(mkVar_ok h2).1]
    show ooP el ++ "_" ++ label = _
    rw [ooP, String.append_assoc, String.append_assoc, lit2 (by decide +kernel : "__OnOff" ++ "_" = "__OnOff_")]
  have hl : ∀ s, ooP el ++ "_" ++ (dur.label ++ s) = el ++ "__OnOff_" ++ (el ++ ("__OnOff_" ++ label)) ++ s := by
    intro s
    rw [hd, ooP]
    simp only [String.append_assoc]
    rw [lit2 (by decide +kernel : "__OnOff" ++ "_" = "__OnOff_")]
  refine ⟨hd, ?_⟩
  unfold minDurationCons at h4
  cases minD with
  | none =>
    cases h4
    refine ⟨["_constraint_1", "_constraint_2a", "_constraint_2b", "_initial"], by decide +kernel, ?_⟩
    simp only [mkEq, mkIneq, List.append_nil, List.map_append, List.map_cons, List.map_nil, List.cons_append, List.nil_append]
    simp only [hl]
  | some m =>
    simp only at h4
    peel h4 with m0, h5
    simp only [except_pure, Except.ok.injEq] at h4
    subst h4
    split
    · refine ⟨["_constraint_1", "_constraint_2a", "_constraint_2b", "_minimum_duration", "_minimum_duration_inital", "_initial"], by decide +kernel, ?_⟩
      simp only [mkEq, mkIneq, List.map_append, List.map_cons, List.map_nil, List.cons_append, List.nil_append]
      simp only [hl]
    · refine ⟨["_constraint_1", "_constraint_2a", "_constraint_2b", "_minimum_duration", "_initial"], by decide +kernel, ?_⟩
      simp only [mkEq, mkIneq, List.map_append, List.map_cons, List.map_nil, List.cons_append, List.nil_append]
      simp only [hl]

/-- The constraints of a duration. -/
def durKeys (label : String) : List CT :=
  ["_constraint_1", "_constraint_2a", "_constraint_2b", "_minimum_duration", "_minimum_duration_inital", "_initial"].map fun s =>
    CT.twice "__OnOff_" ("__OnOff_" ++ label ++ s)

theorem duration_keys' {sys : Sys} {el label : String} {binary : Var} {minD maxD : Option Num} {r : Var × List ConReq}
    (h : getDuration sys (ooP el) label binary minD maxD = .ok r) :
    [r.1].map (·.label) = ["__OnOff_" ++ label].map (el ++ ·) ∧ ∃ cs : List CT, cs.Sublist (durKeys label) ∧ r.2.map (·.label) = cs.map fun t => clabel (el, t) := by
  obtain ⟨h1, cs, h2, h3⟩ := duration_keys h
  refine ⟨by simp [h1], cs.map fun s => CT.twice "__OnOff_" ("__OnOff_" ++ label ++ s), h2.map _, ?_⟩
  rw [h3, List.map_map]
  refine List.map_congr_left fun s _ => ?_
  simp only [Function.comp, clabel, CT.pre, CT.suf, String.append_assoc]

theorem durOn_keys {sys : Sys} {el : String} {q : OnOffParams} {on : Var} {d : Option (Var × List ConReq)}
    (h : durationOnOpt sys (ooP el) q on = .ok d) :
    ∃ (vs : List String) (cs : List CT), vs.Sublist ["__OnOff_consecutiveOnHours"] ∧ cs.Sublist (durKeys "consecutiveOnHours") ∧
      (d.map (·.1)).toList.map (·.label) = vs.map (el ++ ·) ∧ ((d.map (·.2)).getD []).map (·.label) = cs.map fun t => clabel (el, t) := by
  unfold durationOnOpt at h
  split at h
  · obtain ⟨r, hr, hr'⟩ := map_ok.1 h
    subst hr'
    obtain ⟨h1, cs, h2, h3⟩ := duration_keys' hr
    rw [show "__OnOff_" ++ "consecutiveOnHours" = "__OnOff_consecutiveOnHours" by decide +kernel] at h1
    exact ⟨["__OnOff_consecutiveOnHours"], cs, List.Sublist.refl _, h2, h1, h3⟩
  · cases h
    exact ⟨[], [], List.nil_sublist _, List.nil_sublist _, rfl, rfl⟩

theorem durOff_keys {sys : Sys} {el : String} {q : OnOffParams} {off : Option Var} {d : Option (Var × List ConReq)}
    (h : durationOffOpt sys (ooP el) q off = .ok d) :
    ∃ (vs : List String) (cs : List CT), vs.Sublist ["__OnOff_consecutiveOffHours"] ∧ cs.Sublist (durKeys "consecutiveOffHours") ∧
      (d.map (·.1)).toList.map (·.label) = vs.map (el ++ ·) ∧ ((d.map (·.2)).getD []).map (·.label) = cs.map fun t => clabel (el, t) := by
  unfold durationOffOpt at h
  split at h
  · cases off with
    | none => cases h
    | some off =>
      obtain ⟨r, hr, hr'⟩ := map_ok.1 h
      subst hr'
      obtain ⟨h1, cs, h2, h3⟩ := duration_keys' hr
      rw [show "__OnOff_" ++ "consecutiveOffHours" = "__OnOff_consecutiveOffHours" by decide +kernel] at h1
      exact ⟨["__OnOff_consecutiveOffHours"], cs, List.Sublist.refl _, h2, h1, h3⟩
  · cases h
    exact ⟨[], [], List.nil_sublist _, List.nil_sublist _, rfl, rfl⟩

theorem onCons_keys {sys : Sys} {el : String} {on : Var} {d : List (Var × Num × Num)} {cs : List ConReq}
    (h : onConstraints sys (ooP el) on d = .ok cs) :
    cs.map (·.label) = [CT.plain "__OnOff_On_Constraint_1", CT.plain "__OnOff_On_Constraint_2"].map fun t => clabel (el, t) := by
  unfold onConstraints at h
  simp only at h
  split at h
  · cases h
  · cases h
    simp [mkIneq, ooP, clabel, CT.pre, CT.suf, String.append_assoc]
  · peel h with a, ha
    cases h
    simp [mkIneq, ooP, clabel, CT.pre, CT.suf, String.append_assoc]

theorem switch_keys {sys : Sys} {el : String} {on a b nr : Var} {cs : List ConReq} (h : switchConstraints sys (ooP el) on a b nr = .ok cs) :
    cs.map (·.label) = ["__OnOff_Switch", "__OnOff_Initial_Switch", "__OnOff_Switch_On_or_Off", "__OnOff_NrSwitchOn"].map fun s => clabel (el, .plain s) := by
  unfold switchConstraints at h
  peel h with l, hl
  simp only [except_pure, Except.ok.injEq] at h
  subst h
  simp [mkEq, mkIneq, ooP, clabel, CT.pre, CT.suf, String.append_assoc]

/-- All constraints of an on/off model. -/
def onConKeys : List CT := [.plain "__OnOff_totalOnHours"] ++ [.plain "__OnOff_On_Constraint_1", .plain "__OnOff_On_Constraint_2"] ++
  [.plain "__OnOff_var_off"] ++ durKeys "consecutiveOnHours" ++ durKeys "consecutiveOffHours" ++
  ["__OnOff_Switch", "__OnOff_Initial_Switch", "__OnOff_Switch_On_or_Off", "__OnOff_NrSwitchOn"].map CT.plain

theorem durKeys_occurs {el : String} (hel : IsFull el) {label : String} (hl : label = "consecutiveOnHours" ∨ label = "consecutiveOffHours") :
    ∀ t ∈ durKeys label, t.Occurs el ∧ t.cls ∈ [1] := by
  intro t ht
  unfold durKeys at ht
  obtain ⟨s, hs, rfl⟩ := List.mem_map.1 ht
  refine ⟨⟨hel, Or.inl ⟨rfl, ?_⟩⟩, by simp [CT.cls]⟩
  have key : ∀ s ∈ ["_constraint_1", "_constraint_2a", "_constraint_2b", "_minimum_duration", "_minimum_duration_inital", "_initial"],
      "__OnOff_" ++ "consecutiveOnHours" ++ s ∈ durOnSufs ++ durOffSufs ∧ "__OnOff_" ++ "consecutiveOffHours" ++ s ∈ durOnSufs ++ durOffSufs := by
    decide +kernel
  rcases hl with rfl | rfl
  · exact (key s hs).1
  · exact (key s hs).2

theorem onConKeys_occurs {el : String} (hel : IsFull el) : ∀ t ∈ onConKeys, t.Occurs el ∧ t.cls ∈ [1] := by
  have key : ∀ s ∈ onConSufs, (CT.plain s).Occurs el ∧ (CT.plain s).cls ∈ [1] := by
    intro s hs
    have h : ∀ s ∈ onConSufs, s ∈ plainConSufs ∧ s ≠ "_charge_state" ∧ (CT.plain s).cls ∈ [1] := by decide +kernel
    obtain ⟨h1, h2, h3⟩ := h s hs
    exact ⟨occurs_plain hel h1 h2, h3⟩
  intro t ht
  unfold onConKeys at ht
  simp only [List.mem_append] at ht
  rcases ht with ((((h | h) | h) | h) | h) | h
  · rw [List.mem_singleton.1 h]; exact key _ (by decide +kernel)
  · simp only [List.mem_cons, List.not_mem_nil, or_false] at h
    rcases h with rfl | rfl <;> exact key _ (by decide +kernel)
  · rw [List.mem_singleton.1 h]; exact key _ (by decide +kernel)
  · exact durKeys_occurs hel (Or.inl rfl) t h
  · exact durKeys_occurs hel (Or.inr rfl) t h
  · obtain ⟨s, hs, rfl⟩ := List.mem_map.1 h
    exact key s ((by decide +kernel : ∀ s ∈ ["__OnOff_Switch", "__OnOff_Initial_Switch", "__OnOff_Switch_On_or_Off", "__OnOff_NrSwitchOn"], s ∈ onConSufs) s hs)

theorem onOff_keys {sys : Sys} {el : String} {q : OnOffParams} {d : List (Var × Num × Num)} {o : OnOffOut} (hel : IsFull el)
    (h : onOffModel sys el q d = .ok o) :
    KL vlabel (VIn el [1]) o.tree.labels ∧ KL clabel (CIn el [1]) o.tree.conLabels := by
  obtain ⟨prevOn, cOn, off, dOn, dOff, swOn, swOff, nr, cSw, -, hon, htot, hcOn, hoff, hdOn, hdOff, hsw1, hsw2, hnr, hsw, -, -, -, -, -, -, hvars, hcons, -⟩ := onOff_inv h
  obtain ⟨v1, c1, s1, s1', e1, e1'⟩ := off_keys hoff
  obtain ⟨v2, c2, s2, s2', e2, e2'⟩ := durOn_keys hdOn
  obtain ⟨v3, c3, s3, s3', e3, e3'⟩ := durOff_keys hdOff
  have hov : o.on.label = el ++ "__OnOff_on" := by rw [hon]; simp [ooP, String.append_assoc]
  have htv : o.totalOnHours.label = el ++ "__OnOff_totalOnHours" := by rw [htot]; simp [ooP, String.append_assoc]
  have h1v : swOn.label = el ++ "__OnOff_switchOn" := by rw [hsw1]; simp [ooP, String.append_assoc]
  have h2v : swOff.label = el ++ "__OnOff_switchOff" := by rw [hsw2]; simp [ooP, String.append_assoc]
  have h3v : nr.label = el ++ "__OnOff_nrSwitchOn" := by rw [hnr]; simp [ooP, String.append_assoc]
  unfold OnOffOut.tree
  rw [labels_node, conLabels_node, hvars, hcons]
  simp only [List.flatMap_nil, List.append_nil]
  constructor
  · refine vplain hel onVarSufs (sub := ["__OnOff_on", "__OnOff_totalOnHours"] ++ v1 ++ v2 ++ v3 ++ ["__OnOff_switchOn", "__OnOff_switchOff", "__OnOff_nrSwitchOn"]) ?_ ?_
      (by decide +kernel) (by decide +kernel)
    · exact ((((List.Sublist.refl ["__OnOff_on", "__OnOff_totalOnHours"]).append s1).append s2).append s3).append
        (List.Sublist.refl ["__OnOff_switchOn", "__OnOff_switchOff", "__OnOff_nrSwitchOn"])
    · simp only [List.map_append, e1, e2, e3, List.map_cons, List.map_nil, hov, htv, h1v, h2v, h3v]
  · refine csub onConKeys (sub := [CT.plain "__OnOff_totalOnHours"] ++ [.plain "__OnOff_On_Constraint_1", .plain "__OnOff_On_Constraint_2"] ++ c1 ++ c2 ++ c3 ++
      ["__OnOff_Switch", "__OnOff_Initial_Switch", "__OnOff_Switch_On_or_Off", "__OnOff_NrSwitchOn"].map CT.plain) ?_ ?_ (by decide +kernel) (onConKeys_occurs hel)
    · exact ((((List.Sublist.refl _).append s1').append s2').append s3').append (List.Sublist.refl _)
    · simp only [List.map_append, e1', e2', e3', onCons_keys hcOn, switch_keys hsw, List.map_map, Function.comp_def]
      simp [mkEq, ooP, clabel, CT.pre, CT.suf, String.append_assoc]

end Flix
