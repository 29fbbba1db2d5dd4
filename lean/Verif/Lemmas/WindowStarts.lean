import Verif.Lemmas.Starts

/-! # Starts in the segments and on the whole horizon -/

namespace Flix

variable {sys : Sys} {L m : Nat} {len : Nat → Nat}

/-! ## What a segment declares -/

section Views

variable (a k : Nat) (st : SegStart)

theorem comp_window_views (c : Comp) : (c.window a k st).label = c.label ∧
    (c.window a k st).inputs = (c.inputs.map fun f => f.window a k (st.rate c.label f.label)) ∧
    (c.window a k st).outputs = (c.outputs.map fun f => f.window a k (st.rate c.label f.label)) ∧
    (c.window a k st).onOff = c.onOff.map (OnOffParams.window a k) := by
  cases c with
  | plain c => exact ⟨rfl, rfl, rfl, rfl⟩
  | converter c => exact ⟨rfl, rfl, rfl, rfl⟩
  | storage s => exact ⟨rfl, rfl, rfl, rfl⟩
  | transmission t =>
    refine ⟨rfl, ?_, ?_, rfl⟩
    · show _ :: (t.in2.map _).toList = _
      cases h : t.in2 <;> simp [Comp.inputs, h, TransData.window, Comp.label]
    · show _ :: (t.out2.map _).toList = _
      cases h : t.out2 <;> simp [Comp.outputs, h, TransData.window, Comp.label]

theorem comp_window_flows (c : Comp) : (c.window a k st).flows = c.flows.map fun f => f.window a k (st.rate c.label f.label) := by
  obtain ⟨_, h2, h3, _⟩ := comp_window_views a k st c
  rw [Comp.flows, h2, h3, Comp.flows, List.map_append]

end Views

/-! ## Starts -/

/-- The states at the ends of the segments can be read off the values handed over: no flow that pays for its starts has exactly the rate
`eps` there, and a component that pays for its starts and is running there has its last flow running (the code reads only the value of the
last flow). -/
structure Comp.Clear (eps : ℚ) (L m : Nat) (σ : Nat → Assignment) (c : Comp) : Prop where
  flows : ∀ f ∈ c.flows, ∀ q, f.onOff = some q → q.effectsPerSwitchOn ≠ [] → ∀ k, k + 1 < m → σ k (rateL c.label f.label) (L - 1) ≠ eps
  comp : ∀ q, c.onOff = some q → q.effectsPerSwitchOn ≠ [] → ∀ k, k + 1 < m → σ k (stateL c.label) (L - 1) = 1 →
    ∀ f, c.flows.getLast? = some f → eps < σ k (rateL c.label f.label) (L - 1)

/-- The starts in `τ` are those of the segments wherever they are paid for. -/
structure Comp.TakesStarts (n L : Nat) (c : Comp) (σ : Nat → Assignment) (τ : Assignment) : Prop where
  flows : ∀ f ∈ c.flows, ∀ q, f.onOff = some q → q.effectsPerSwitchOn ≠ [] →
    ∀ t < n, τ (startL (flowFull c.label f.label)) t = σ (t / L) (startL (flowFull c.label f.label)) (t % L)
  comp : ∀ q, c.onOff = some q → q.effectsPerSwitchOn ≠ [] → ∀ t < n, τ (startL c.label) t = σ (t / L) (startL c.label) (t % L)

theorem anyComp_window_proper {c : Comp} {a k : Nat} {st : SegStart} (h : c.Proper sys) (hl : c.Local) (hi : a + k ≤ sys.n) :
    (c.window a k st).Proper (sys.window a k) := by
  cases c with
  | plain c => exact comp_window_proper (c := c) h hl hi
  | storage s => exact storage_window_proper (s := s) h hl hi
  | transmission t => exact trans_window_proper (t := t) h hl hi
  | converter c =>
    refine ⟨comp_window_proper (c := c.comp) h.1 hl hi, ?_, ?_⟩
    · intro fs hfs q hq
      obtain ⟨fs', hfs', rfl⟩ := List.mem_map.1 hfs
      obtain ⟨q', hq', rfl⟩ := List.mem_map.1 hq
      exact fits_window (h.2.1 fs' hfs' q' hq') hi
    · intro r hr q hq
      obtain ⟨r', hr', rfl⟩ := List.mem_map.1 hr
      obtain ⟨q', hq', rfl⟩ := List.mem_map.1 hq
      exact ⟨fits_window (h.2.2 r' hr' q' hq').1 hi, fits_window (h.2.2 r' hr' q' hq').2 hi⟩

theorem starts_join {N : Nat} (hc : Cover N L m len) {el : String} {σ : Nat → Assignment} {τ : Assignment} {hist : List ℚ} {histk : Nat → List ℚ}
    (h0 : histk 0 = hist) (hk : ∀ k < m, StartsRight (len k) (σ k) el (histk k)) (hw : StartsRight N τ el hist)
    (hst : ∀ t < N, τ (stateL el) t = σ (t / L) (stateL el) (t % L))
    (hb : ∀ k, k + 1 < m → ∀ last, (histk (k + 1)).getLast? = some last → last = σ k (stateL el) (L - 1)) :
    ∀ t < N, τ (startL el) t = σ (t / L) (startL el) (t % L) := by
  intro t ht
  obtain ⟨o1, o2, o3⟩ := hc.owner ht
  obtain ⟨last, l1, l2⟩ := hw
  obtain ⟨lastk, k1, k2⟩ := hk _ o1
  rw [l2 t ht, k2 _ o2]
  have hbefore : stateBefore (τ (stateL el)) last t = stateBefore (σ (t / L) (stateL el)) lastk (t % L) := by
    have hL := hc.pos
    cases hi : t % L with
    | succ i =>
      have htp : t = t / L * L + (i + 1) := by rw [← hi]; exact o3.symm
      have hlt : i + 1 < L := by rw [← hi]; exact Nat.mod_lt _ hL
      have e : t = (t / L * L + i) + 1 := by omega
      have d1 : (t / L * L + i) / L = t / L := by
        rw [Nat.add_comm, Nat.add_mul_div_right _ _ hL, Nat.div_eq_of_lt (by omega), Nat.zero_add]
      have d2 : (t / L * L + i) % L = i := by
        rw [Nat.add_comm, Nat.add_mul_mod_self_right, Nat.mod_eq_of_lt (by omega)]
      have := hst (t / L * L + i) (by omega)
      rw [d1, d2] at this
      conv_lhs => rw [e]
      exact this
    | zero =>
      cases hk' : t / L with
      | zero =>
        rw [hk', hi] at o3
        have : t = 0 := by omega
        subst this
        rw [hk', h0, l1] at k1
        cases k1
        rfl
      | succ k =>
        rw [hk'] at k1 o1
        rw [hb k o1 lastk k1]
        rw [hk', hi] at o3
        have e : t = (k * L + (L - 1)) + 1 := by
          have : (k + 1) * L = k * L + L := by ring
          omega
        have d1 : (k * L + (L - 1)) / L = k := by
          rw [Nat.add_comm, Nat.add_mul_div_right _ _ hL, Nat.div_eq_of_lt (by omega), Nat.zero_add]
        have d2 : (k * L + (L - 1)) % L = L - 1 := by
          rw [Nat.add_comm, Nat.add_mul_mod_self_right, Nat.mod_eq_of_lt (by omega)]
        have := hst (k * L + (L - 1)) (by omega)
        rw [d1, d2] at this
        rw [e]
        exact this
  have : Starts (τ (stateL el)) last t ↔ Starts (σ (t / L) (stateL el)) lastk (t % L) := by
    unfold Starts
    rw [hbefore, hst t ht]
  by_cases hs : Starts (τ (stateL el)) last t
  · rw [if_pos hs, if_pos (this.1 hs)]
  · rw [if_neg hs, if_neg fun h => hs (this.2 h)]

/-- The history of several flows with one value each: the state of the last one. -/
theorem scalars_last {eps : ℚ} {xs : List ℚ} {hist : List ℚ} (h : prevOnOfList eps (xs.map Num.s) = .ok hist) :
    hist = if xs = [] then [0] else xs.map (isOn eps) := by
  unfold prevOnOfList at h
  cases xs with
  | nil => simp at h; simp [h]
  | cons x xs =>
    have e1 : ((x :: xs).map Num.s).filterMap (fun a => match a with | .s x => some x | .v _ => none) = x :: xs := by
      rw [List.filterMap_map]
      exact List.filterMap_some
    have e2 : ((x :: xs).map Num.s).filterMap (fun a => match a with | .s _ => none | .v ys => some ys) = ([] : List (List ℚ)) := by
      rw [List.filterMap_map, List.filterMap_eq_nil_iff]
      intro a _
      rfl
    simp only [e1, e2] at h
    simp at h
    simp [← h]

theorem comp_joins_starts (hv : sys.Valid) (hc : Cover sys.n L m len) {c : Comp} {oc : CompOut} (hp : c.Proper sys) (hl : c.Local)
    {σ : Nat → Assignment} {st : Nat → SegStart} {τ : Assignment} (hh : c.Handed L m σ st) (hcl : c.Clear sys.cfg.eps L m σ)
    (h : c.model sys = .ok oc) (hτ : oc.tree.Solves τ) (ht : c.Takes sys.n L m σ τ)
    (hs : ∀ k < m, ∃ ok, (c.window (k * L) (len k) (st k)).model (sys.window (k * L) (len k)) = .ok ok ∧ ok.tree.Solves (σ k)) :
    c.TakesStarts sys.n L σ τ := by
  have whole := anyComp_starts hv hp h hτ
  have seg : ∀ k < m, CompStarts (sys.window (k * L) (len k)) (σ k) (c.window (k * L) (len k) (st k)) := by
    intro k hk
    obtain ⟨ok, h1, h2⟩ := hs k hk
    exact anyComp_starts (valid_window hv (hc.inside k hk)) (anyComp_window_proper hp hl (hc.inside k hk)) h1 h2
  have views : ∀ k, (c.window (k * L) (len k) (st k)).label = c.label ∧
      (c.window (k * L) (len k) (st k)).flows = (c.flows.map fun f => f.window (k * L) (len k) ((st k).rate c.label f.label)) ∧
      (c.window (k * L) (len k) (st k)).onOff = c.onOff.map (OnOffParams.window (k * L) (len k)) := fun k =>
    ⟨(comp_window_views _ _ _ c).1, comp_window_flows _ _ _ c, (comp_window_views _ _ _ c).2.2.2⟩
  have inseg : ∀ k, k + 1 < m → L - 1 < len k := fun k hk => by
    have := hc.whole k hk
    have := hc.pos
    omega
  have hex : ∀ (p : Nat → List ℚ → Prop), (∀ k < m, ∃ x, p k x) → ∃ g : Nat → List ℚ, ∀ k < m, p k (g k) := by
    intro p hp
    refine ⟨fun k => if hk : k < m then (hp k hk).choose else [], fun k hk => ?_⟩
    simp only [dif_pos hk]
    exact (hp k hk).choose_spec
  refine ⟨fun f hf q hq hne => ?_, fun q hq hne => ?_⟩
  · have hfo : f.onOff ≠ none := by rw [hq]; simp
    have hfw : ∀ k < m, FlowHistory (sys.window (k * L) (len k)) (σ k) c.label (f.window (k * L) (len k) ((st k).rate c.label f.label)) := by
      intro k hk
      have := (seg k hk).flows (f.window (k * L) (len k) ((st k).rate c.label f.label)) (by
        rw [(views k).2.1]
        exact List.mem_map.2 ⟨f, hf, rfl⟩)
      rw [(views k).1] at this
      exact this
    have hwo : ∀ k, (f.window (k * L) (len k) ((st k).rate c.label f.label)).onOff ≠ none := by
      intro k
      rw [flow_window_onOff, hq]
      simp
    refine starts_join hc (histk := fun k => flowHistory sys.cfg.eps ((st k).rate c.label f.label)) (by rw [hh.rate0 f hf])
      (fun k hk => (hfw k hk).starts (hwo k)) ((whole.flows f hf).starts hfo) (ht.flowOn f hf hfo) ?_
    intro k hk last hlast
    rw [hh.rate k hk f hf] at hlast
    simp only [flowHistory, List.getLast?_singleton, Option.some.injEq] at hlast
    rw [← hlast]
    have hcl1 := hcl.flows f hf q hq hne k hk
    have heps := hv.heps
    rcases (hfw k (by omega)).state (hwo k) (L - 1) (inseg k hk) with ⟨a1, a2⟩ | ⟨a1, a2⟩
    · rw [show (f.window (k * L) (len k) ((st k).rate c.label f.label)).label = f.label from rfl] at a1 a2
      rw [a1, a2, abs_zero, if_neg (by linarith)]
    · rw [show (f.window (k * L) (len k) ((st k).rate c.label f.label)).label = f.label from rfl] at a1 a2
      have a2 : sys.cfg.eps ≤ σ k (rateL c.label f.label) (L - 1) := a2
      rw [a1, if_pos]
      exact lt_of_lt_of_le (lt_of_le_of_ne a2 (Ne.symm hcl1)) (le_abs_self _)
  · have hco : c.onOff ≠ none := by rw [hq]; simp
    have hwo : ∀ k, (c.window (k * L) (len k) (st k)).onOff ≠ none := by
      intro k
      rw [(views k).2.2, hq]
      simp
    obtain ⟨hist, e1, e2⟩ := whole.starts hco
    obtain ⟨histk, e3⟩ := hex _ fun k hk => (seg k hk).starts (hwo k)
    have hfm : ∀ k, (c.window (k * L) (len k) (st k)).flows.filterMap (·.previousFlowRate) = c.flows.filterMap fun f => (st k).rate c.label f.label := by
      intro k
      rw [(views k).2.1, List.filterMap_map]
      rfl
    refine starts_join hc (histk := histk) ?_ (fun k hk => by have := (e3 k hk).2; rw [(views k).1] at this; exact this) e2 (ht.on hco) ?_
    · have := (e3 0 hc.some).1
      rw [hfm 0, List.filterMap_congr (fun f hf => hh.rate0 f hf)] at this
      rw [show (sys.window (0 * L) (len 0)).cfg = sys.cfg from rfl, e1] at this
      cases this
      rfl
    · intro k hk last hlast
      have h1 := (e3 (k + 1) hk).1
      rw [hfm (k + 1), List.filterMap_congr (fun f hf => hh.rate k hk f hf)] at h1
      have h2 : c.flows.filterMap (fun f => some (Num.s (σ k (rateL c.label f.label) (L - 1)))) = (c.flows.map fun f => σ k (rateL c.label f.label) (L - 1)).map Num.s := by
        rw [List.map_map]
        exact congrFun (List.filterMap_eq_map' (f := Num.s ∘ fun f : FlowData => σ k (rateL c.label f.label) (L - 1))) c.flows
      rw [h2] at h1
      have h3 := scalars_last h1
      have heps := hv.heps
      have hstate := (seg k (by omega)).state (hwo k) (L - 1) (inseg k hk)
      rw [(views k).1, (views k).2.1] at hstate
      rw [h3] at hlast
      by_cases hnil : c.flows = []
      · simp only [hnil, List.map_nil, if_true, List.getLast?_singleton, Option.some.injEq] at hlast
        rcases hstate with ⟨a1, -⟩ | ⟨-, a2⟩
        · rw [← hlast, a1]
        · obtain ⟨f, hf, -⟩ := a2
          rw [hnil] at hf
          cases hf
      · obtain ⟨f, hf⟩ := Option.ne_none_iff_exists'.1 (show c.flows.getLast? ≠ none by simpa using hnil)
        rw [if_neg (by simpa using hnil), List.getLast?_map, List.getLast?_map, hf] at hlast
        simp only [Option.map_some, Option.some.injEq] at hlast
        rw [← hlast, isOn_eq]
        have hfm : f ∈ c.flows := List.mem_of_getLast? hf
        rcases hstate with ⟨a1, a2⟩ | ⟨a1, -⟩
        · have := a2 (f.window (k * L) (len k) ((st k).rate c.label f.label)) (List.mem_map.2 ⟨f, hfm, rfl⟩)
          rw [show (f.window (k * L) (len k) ((st k).rate c.label f.label)).label = f.label from rfl] at this
          rw [a1, this, abs_zero, if_neg]
          have : 0 < (sys.window ((k + 1) * L) (len (k + 1))).cfg.eps := heps
          linarith
        · have := hcl.comp q hq hne k hk a1 f hf
          rw [a1, if_pos]
          exact lt_of_lt_of_le this (le_abs_self _)

end Flix
