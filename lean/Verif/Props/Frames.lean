import Verif.Model.Frames
import Verif.Props.Tables

/-!
# C88: tables of components, buses and flows
-/

namespace Flix

variable {sys : Sys} {s : System} {o : SysOut} {σ : Assignment}

/-- What the user sees: the column is shown if some value exceeds the threshold. -/
def Exceeds (thr : Option ℚ) (n : Nat) (v : Nat → ℚ) : Prop := ∀ x, thr = some x → ∃ t < n, x < |v t|

/-- What is shown of a series: its values, the last one twice if the end of the horizon is to be shown. -/
def shownValues (n : Nat) (withLast : Bool) (v : Nat → ℚ) : List ℚ :=
  (List.range (if withLast then n + 1 else n)).map fun t => v (min t (n - 1))

/-- No two underscores in a row. -/
def OneUnderscore (l : String) : Prop := ¬ ['_', '_'] <:+: l.toList

theorem pyLookup_none {α} {d : List (String × α)} {k : String} : pyLookup d k = none ↔ k ∉ d.map (·.1) := by
  simp only [pyLookup, Option.map_eq_none_iff, List.find?_eq_none, decide_eq_true_eq, List.mem_map, not_exists, not_and]

/-- Columns of the flows of a component. -/
def compCols (σ : Assignment) (n : Nat) (c : Comp) (ki ko : ℚ) : List (String × List ℚ) :=
  (c.inputs.map fun f => (c.label ++ "__" ++ f.label, colVals σ n (c.label ++ "__" ++ f.label ++ "_flow_rate") ki)) ++
  c.outputs.map fun f => (c.label ++ "__" ++ f.label, colVals σ n (c.label ++ "__" ++ f.label ++ "_flow_rate") ko)

theorem compTable_eq (cfg : Cfg) (σ : Assignment) {n : Nat} (hn1 : 1 < n) {c : Comp} (hn : (c.flows.map fun f => c.label ++ "__" ++ f.label).Nodup)
    (hr : ∀ f ∈ c.flows, f.label ∉ reserved) (ki ko : ℚ) : compTable σ n (c.res cfg n) (some ki) (some ko) = .ok (compCols σ n c ki ko) := by
  have hn' : (c.flows.map (·.label)).Nodup := by
    have e : (c.flows.map fun f => c.label ++ "__" ++ f.label) = (c.flows.map (·.label)).map (c.label ++ "__" ++ ·) := by rw [List.map_map]; rfl
    rw [e] at hn
    exact hn.of_map
  unfold compTable
  rw [flowResults_eq cfg σ n hn' hr, ok_bind]
  simp only [Option.elim]
  have side : ∀ (i : Bool) (k : ℚ) (fs : List FlowData), (fs.map (flowRes σ n c.label i)).mapM (FlowRes.column k) =
      .ok (asArr (fs.map fun f => (c.label ++ "__" ++ f.label, colVals σ n (c.label ++ "__" ++ f.label ++ "_flow_rate") k))) := by
    intro i k fs
    rw [mapM_eq (g := fun f => (f.labelFull, .arr (colVals σ n (f.labelFull ++ "_flow_rate") k)))]
    · simp [asArr, Function.comp_def, flowRes]
    · intro f hf
      obtain ⟨g, _, rfl⟩ := List.mem_map.1 hf
      exact column_eq hn1 k _ _ g
  have f1 : (compFlowRes σ n c).filter (·.isInput) = c.inputs.map (flowRes σ n c.label true) := by
    simp [compFlowRes, List.filter_append, List.filter_map, Function.comp_def, flowRes]
  have f2 : (compFlowRes σ n c).filter (fun f => !f.isInput) = c.outputs.map (flowRes σ n c.label false) := by
    simp [compFlowRes, List.filter_append, List.filter_map, Function.comp_def, flowRes]
  rw [f1, f2, side, side, ok_bind, ok_bind]
  have e0 : ∀ xs : List (String × List ℚ), (asArr xs).map (·.1) = xs.map (·.1) := fun xs => by simp [asArr, Function.comp_def]
  have ea : ∀ xs ys : List (String × List ℚ), asArr xs ++ asArr ys = asArr (xs ++ ys) := fun xs ys => by simp [asArr]
  have hk : ((compCols σ n c ki ko).map (·.1)).Nodup := by
    simpa [compCols, Comp.flows, Function.comp_def] using hn
  have hk1 : ((c.inputs.map fun f => (c.label ++ "__" ++ f.label, colVals σ n (c.label ++ "__" ++ f.label ++ "_flow_rate") ki)).map (·.1)).Nodup :=
    List.Nodup.sublist ((List.sublist_append_left _ _).map _) hk
  rw [pyUpdate_new (d := []) (by rw [List.nil_append, e0]; exact hk1), List.nil_append, pyUpdate_new (by rw [ea, e0]; exact hk), ea]
  refine dataFrame_eq (n := n) fun q hq => ?_
  simp only [List.mem_append, List.mem_map] at hq
  rcases hq with ⟨f, _, rfl⟩ | ⟨f, _, rfl⟩ <;> simp [colVals]

theorem shown_last {n : Nat} (hn : 0 < n) (v : Nat → ℚ) : (List.range n).map v ++ ((List.range n).map v).getLast?.toList = shownValues n true v := by
  obtain ⟨m, rfl⟩ : ∃ m, n = m + 1 := ⟨n - 1, by omega⟩
  unfold shownValues
  rw [if_pos rfl, List.range_succ (n := m + 1), List.map_append]
  congr 1
  · exact List.map_congr_left fun t ht => by rw [min_eq_left (by have := List.mem_range.1 ht; omega)]
  · simp [List.range_succ]

theorem shown_plain (n : Nat) (v : Nat → ℚ) : (List.range n).map v = shownValues n false v := by
  unfold shownValues
  simp only [Bool.false_eq_true, if_false]
  exact List.map_congr_left fun t ht => by rw [min_eq_left (by have := List.mem_range.1 ht; omega)]

open Classical in
/-- Columns of one length after the threshold, with the last row and the index. -/
theorem frame_eq {n : Nat} (hn : 1 < n) {times : List Int} (ht : times.length = n + 1) (cols : List (String × (Nat → ℚ))) (thr : Option ℚ) (w : Bool) :
    ∃ fr, frameOf times w (thr.elim (cols.map fun q => (q.1, (List.range n).map q.2)) fun x => aboveThreshold x (cols.map fun q => (q.1, (List.range n).map q.2))) = .ok fr ∧
      fr.cols = ((cols.filter fun q => decide (Exceeds thr n q.2)).map fun q => (q.1, shownValues n w q.2)) ∧
      fr.index = if fr.cols = [] then none else some (if w then times else times.dropLast) := by
  have ha : (thr.elim (cols.map fun q => (q.1, (List.range n).map q.2)) fun x => aboveThreshold x (cols.map fun q => (q.1, (List.range n).map q.2))) =
      (cols.filter fun q => decide (Exceeds thr n q.2)).map fun q => (q.1, (List.range n).map q.2) := by
    cases thr with
    | none => simp [Exceeds]
    | some x =>
      simp only [Option.elim, aboveThreshold, List.filter_map]
      congr 1
      refine List.filter_congr fun q _ => ?_
      rw [Bool.eq_iff_iff]
      simp only [Function.comp, List.any_eq_true, List.mem_map, List.mem_range, Bool.or_eq_true, decide_eq_true_eq, Exceeds, Option.some.injEq, forall_eq', lt_abs]
      constructor
      · rintro ⟨y, ⟨t, h1, rfl⟩, h2⟩
        exact ⟨t, h1, h2.imp id (by intro h; linarith)⟩
      · rintro ⟨t, h1, h2⟩
        exact ⟨_, ⟨t, h1, rfl⟩, h2.imp id (by intro h; linarith)⟩
  rw [ha]
  generalize cols.filter (fun q => decide (Exceeds thr n q.2)) = kept
  cases kept with
  | nil => exact ⟨⟨[], none⟩, rfl, rfl, rfl⟩
  | cons k ks =>
    have hrows : frameRows ((k :: ks).map fun q => (q.1, (List.range n).map q.2)) = n := by simp [frameRows]
    have hdl : times.dropLast.length = n := by simp [ht]
    unfold frameOf
    rw [hrows, if_neg (by omega)]
    cases w with
    | true =>
      rw [if_pos rfl, hdl, if_pos rfl]
      have e : repeatLast ((k :: ks).map fun q => (q.1, (List.range n).map q.2)) = (k :: ks).map fun q => (q.1, shownValues n true q.2) := by
        unfold repeatLast
        rw [List.map_map]
        exact List.map_congr_left fun q _ => by simp only [Function.comp]; rw [shown_last (by omega)]
      rw [e]
      unfold setIndex
      rw [if_pos (by simp [frameRows, shownValues, ht])]
      exact ⟨_, rfl, rfl, by simp⟩
    | false =>
      rw [if_neg (by simp), ht, if_neg (by omega)]
      have e : ((k :: ks).map fun q => (q.1, (List.range n).map q.2)) = (k :: ks).map fun q => (q.1, shownValues n false q.2) :=
        List.map_congr_left fun q _ => by rw [shown_plain]
      unfold setIndex
      rw [hrows, if_pos hdl.symm, e]
      exact ⟨_, rfl, rfl, by simp⟩

/-! ## Which table is chosen -/

theorem element_lookup (cfg : Cfg) (n : Nat) {s : System} (hl : (s.comps.map Comp.label ++ s.buses.map (·.label)).Nodup) :
    (∀ c ∈ s.comps, pyLookup (elementDict cfg n s) c.label = some (.comp (c.res cfg n))) ∧
    (∀ b ∈ s.buses, pyLookup (elementDict cfg n s) b.label = some (.bus b)) ∧
    ∀ l, l ∉ s.comps.map Comp.label → l ∉ s.buses.map (·.label) → pyLookup (elementDict cfg n s) l = none := by
  have hk : (((s.comps.map fun c => ((c.res cfg n).label, FoundElement.comp (c.res cfg n))) ++ s.buses.map fun b => (b.label, FoundElement.bus b)).map (·.1)).Nodup := by
    simpa [Function.comp_def, res_label] using hl
  have e : elementDict cfg n s = (s.comps.map fun c => ((c.res cfg n).label, FoundElement.comp (c.res cfg n))) ++ s.buses.map fun b => (b.label, FoundElement.bus b) := by
    unfold elementDict
    rw [pyUpdate_new (d := []) (by rw [List.nil_append]; exact List.Nodup.sublist ((List.sublist_append_left _ _).map _) hk), List.nil_append, pyUpdate_new hk]
  rw [e]
  refine ⟨fun c hc => pyLookup_of_mem hk (List.mem_append_left _ (List.mem_map.2 ⟨c, hc, by rw [(res_label cfg n c).1]⟩)),
    fun b hb => pyLookup_of_mem hk (List.mem_append_right _ (List.mem_map.2 ⟨b, hb, rfl⟩)), fun l h1 h2 => ?_⟩
  rw [pyLookup_none]
  simpa [Function.comp_def, res_label] using And.intro (by simpa using h1) (by simpa using h2)

theorem flow_lookup (σ : Assignment) (n : Nat) {cs : List Comp} (hn : ((cs.map fun c => c.flows.map fun f => c.label ++ "__" ++ f.label).flatten).Nodup) :
    (∀ c ∈ cs, ∀ f ∈ c.flows, ∃ i, pyLookup ((cs.map fun c => (compFlowRes σ n c).map fun f => (f.labelFull, f)).flatten) (c.label ++ "__" ++ f.label) = some (flowRes σ n c.label i f)) ∧
    ∀ l, (∀ c ∈ cs, ∀ f ∈ c.flows, l ≠ c.label ++ "__" ++ f.label) → pyLookup ((cs.map fun c => (compFlowRes σ n c).map fun f => (f.labelFull, f)).flatten) l = none := by
  have hk : ((cs.map fun c => (compFlowRes σ n c).map fun f => (f.labelFull, f)).flatten.map (·.1)) = (cs.map fun c => c.flows.map fun f => c.label ++ "__" ++ f.label).flatten := by
    simp [List.map_flatten, Function.comp_def, compFlowRes, flowRes, Comp.flows]
  constructor
  · intro c hc f hf
    rcases List.mem_append.1 hf with hf | hf
    · exact ⟨true, pyLookup_of_mem (hk ▸ hn) (List.mem_flatten.2 ⟨_, List.mem_map.2 ⟨c, hc, rfl⟩, List.mem_map.2 ⟨_, List.mem_append_left _ (List.mem_map.2 ⟨f, hf, rfl⟩), rfl⟩⟩)⟩
    · exact ⟨false, pyLookup_of_mem (hk ▸ hn) (List.mem_flatten.2 ⟨_, List.mem_map.2 ⟨c, hc, rfl⟩, List.mem_map.2 ⟨_, List.mem_append_right _ (List.mem_map.2 ⟨f, hf, rfl⟩), rfl⟩⟩)⟩
  · intro l h
    rw [pyLookup_none, hk]
    intro hm
    obtain ⟨_, h1, h2⟩ := List.mem_flatten.1 hm
    obtain ⟨c, hc, rfl⟩ := List.mem_map.1 h1
    obtain ⟨f, hf, rfl⟩ := List.mem_map.1 h2
    exact h c hc f hf rfl

/-! ## The tables -/

theorem frame_of {cfg : Cfg} {σ : Assignment} {n : Nat} {times : List Int} {s : System} {l : String} {inF outF thr : Option ℚ} {w : Bool}
    {flows : List (String × FlowRes)} {cols : List (String × (Nat → ℚ))} (hn : 1 < n) (ht : times.length = n + 1)
    (h1 : allFlowResults σ n (s.comps.map (Comp.res cfg n)) = .ok flows)
    (h2 : elementTable cfg σ n s flows l inF outF = .ok (cols.map fun q => (q.1, (List.range n).map q.2))) :
    ∃ fr, toDataframe cfg σ n times s l inF outF thr w = .ok fr ∧
      (∀ q, q ∈ fr.cols ↔ ∃ p ∈ cols, Exceeds thr n p.2 ∧ q = (p.1, shownValues n w p.2)) ∧
      (thr = none → fr.cols = cols.map fun q => (q.1, shownValues n w q.2)) ∧
      fr.index = if fr.cols = [] then none else some (if w then times else times.dropLast) := by
  classical
  obtain ⟨fr, f1, f2, f3⟩ := frame_eq hn ht cols thr w
  refine ⟨fr, ?_, fun q => ?_, fun h => ?_, f3⟩
  · unfold toDataframe
    rw [h1, ok_bind, h2, ok_bind]
    exact f1
  · rw [f2]
    simp only [List.mem_map, List.mem_filter, decide_eq_true_eq]
    constructor
    · rintro ⟨p, ⟨h1, h2⟩, rfl⟩
      exact ⟨p, h1, h2, rfl⟩
    · rintro ⟨p, h1, h2, rfl⟩
      exact ⟨p, ⟨h1, h2⟩, rfl⟩
  · rw [f2, List.filter_eq_self.2]
    intro q _
    simp [Exceeds, h]

/-- **C88, components.**  `to_dataframe` of a component has exactly one column for each of its flows that somewhere exceeds the threshold: the flow
rates of the solution, those of inputs with the one factor and those of outputs with the other, the last one repeated at the end of the horizon. -/
theorem C88_component_partial (h : systemModel sys s = .ok o) (hn : 1 < sys.n) {times : List Int} (ht : times.length = sys.n + 1)
    (hl : (s.comps.map Comp.label ++ s.buses.map (·.label)).Nodup) (hu : ∀ c ∈ s.comps, OneUnderscore c.label)
    (hr : ∀ c ∈ s.comps, ∀ f ∈ c.flows, f.label ∉ ["OnOff", "PreventSimultaneousUsage", "MultipleSegments", "Investment"])
    {c : Comp} (hc : c ∈ s.comps) (ki ko : ℚ) (thr : Option ℚ) (w : Bool) :
    ∃ fr, toDataframe sys.cfg σ sys.n times s c.label (some ki) (some ko) thr w = .ok fr ∧
      (∀ q, q ∈ fr.cols ↔
        (∃ f ∈ c.inputs, Exceeds thr sys.n (fun t => σ (c.label ++ "__" ++ f.label ++ "_flow_rate") t * ki) ∧
          q = (c.label ++ "__" ++ f.label, shownValues sys.n w fun t => σ (c.label ++ "__" ++ f.label ++ "_flow_rate") t * ki)) ∨
        ∃ f ∈ c.outputs, Exceeds thr sys.n (fun t => σ (c.label ++ "__" ++ f.label ++ "_flow_rate") t * ko) ∧
          q = (c.label ++ "__" ++ f.label, shownValues sys.n w fun t => σ (c.label ++ "__" ++ f.label ++ "_flow_rate") t * ko)) ∧
      fr.index = if fr.cols = [] then none else some (if w then times else times.dropLast) := by
  have hnd := flows_nodup h
  have hlc := (List.nodup_append.1 hl).1
  obtain ⟨fr, f1, f2, _, f3⟩ := frame_of (inF := some ki) (outF := some ko) (thr := thr) (w := w) (l := c.label)
    (cols := (c.inputs.map fun f => (c.label ++ "__" ++ f.label, fun t => σ (c.label ++ "__" ++ f.label ++ "_flow_rate") t * ki)) ++
      c.outputs.map fun f => (c.label ++ "__" ++ f.label, fun t => σ (c.label ++ "__" ++ f.label ++ "_flow_rate") t * ko)) hn ht
    (allFlowResults_eq sys.cfg σ sys.n hlc hnd hr) (by
      unfold elementTable
      rw [(element_lookup sys.cfg sys.n hl).1 c hc, (flow_lookup σ sys.n hnd).2 c.label fun d _ f _ e => full_ne_of_plain (hu c hc) e.symm]
      simp only
      rw [compTable_eq sys.cfg σ hn ((List.nodup_flatten.1 hnd).1 _ (List.mem_map.2 ⟨c, hc, rfl⟩)) (hr c hc)]
      simp [compCols, Function.comp_def, colVals])
  refine ⟨fr, f1, fun q => ?_, f3⟩
  rw [f2]
  simp only [List.mem_append, List.mem_map, or_and_right, exists_or]
  refine or_congr ?_ ?_
  · constructor
    · rintro ⟨_, ⟨f, hf, rfl⟩, h2, rfl⟩
      exact ⟨f, hf, h2, rfl⟩
    · rintro ⟨f, hf, h2, rfl⟩
      exact ⟨_, ⟨f, hf, rfl⟩, h2, rfl⟩
  · constructor
    · rintro ⟨_, ⟨f, hf, rfl⟩, h2, rfl⟩
      exact ⟨f, hf, h2, rfl⟩
    · rintro ⟨f, hf, h2, rfl⟩
      exact ⟨_, ⟨f, hf, rfl⟩, h2, rfl⟩

/-- **C88, flows.**  `to_dataframe` of a flow is its flow rate, without any sign, or empty if the threshold is nowhere exceeded. -/
theorem C88_flow_partial (h : systemModel sys s = .ok o) (hn : 1 < sys.n) {times : List Int} (ht : times.length = sys.n + 1)
    (hl : (s.comps.map Comp.label ++ s.buses.map (·.label)).Nodup) (hu : ∀ c ∈ s.comps, OneUnderscore c.label) (hub : ∀ b ∈ s.buses, OneUnderscore b.label)
    (hr : ∀ c ∈ s.comps, ∀ f ∈ c.flows, f.label ∉ ["OnOff", "PreventSimultaneousUsage", "MultipleSegments", "Investment"])
    {c : Comp} (hc : c ∈ s.comps) {f : FlowData} (hf : f ∈ c.flows) (inF outF thr : Option ℚ) (w : Bool) :
    ∃ fr, toDataframe sys.cfg σ sys.n times s (c.label ++ "__" ++ f.label) inF outF thr w = .ok fr ∧
      (∀ q, q ∈ fr.cols ↔ Exceeds thr sys.n (σ (c.label ++ "__" ++ f.label ++ "_flow_rate")) ∧
        q = ("flow_rate", shownValues sys.n w (σ (c.label ++ "__" ++ f.label ++ "_flow_rate")))) ∧
      fr.index = if fr.cols = [] then none else some (if w then times else times.dropLast) := by
  have hnd := flows_nodup h
  have hlc := (List.nodup_append.1 hl).1
  obtain ⟨fr, f1, f2, _, f3⟩ := frame_of (inF := inF) (outF := outF) (thr := thr) (w := w) (l := c.label ++ "__" ++ f.label)
    (cols := [("flow_rate", σ (c.label ++ "__" ++ f.label ++ "_flow_rate"))]) hn ht
    (allFlowResults_eq sys.cfg σ sys.n hlc hnd hr) (by
      obtain ⟨i, hi⟩ := (flow_lookup σ sys.n hnd).1 c hc f hf
      unfold elementTable
      rw [hi, (element_lookup sys.cfg sys.n hl).2.2]
      · simp only [flowTable, flowRes, flowResult, RTree.dict?, Option.elim, ok_bind, dictGet, List.lookup_cons, beq_self_eq_true]
        rw [seriesResult_many hn]
        exact dataFrame_eq (n := sys.n) (xs := [("flow_rate", (List.range sys.n).map (σ (c.label ++ "__" ++ f.label ++ "_flow_rate")))]) (by simp)
      · intro hm
        obtain ⟨d, hd, e⟩ := List.mem_map.1 hm
        exact full_ne_of_plain (hu d hd) e.symm
      · intro hm
        obtain ⟨d, hd, e⟩ := List.mem_map.1 hm
        exact full_ne_of_plain (hub d hd) e.symm)
  refine ⟨fr, f1, fun q => ?_, f3⟩
  rw [f2]
  simp

/-- **C88, unknown labels** raise. -/
theorem C88_unknown (h : systemModel sys s = .ok o) (hl : (s.comps.map Comp.label ++ s.buses.map (·.label)).Nodup)
    (hr : ∀ c ∈ s.comps, ∀ f ∈ c.flows, f.label ∉ ["OnOff", "PreventSimultaneousUsage", "MultipleSegments", "Investment"])
    {l : String} (h1 : ∀ c ∈ s.comps, l ≠ c.label ∧ ∀ f ∈ c.flows, l ≠ c.label ++ "__" ++ f.label) (h2 : ∀ b ∈ s.buses, l ≠ b.label)
    (times : List Int) (inF outF thr : Option ℚ) (w : Bool) : toDataframe sys.cfg σ sys.n times s l inF outF thr w = .error .value := by
  have hnd := flows_nodup h
  unfold toDataframe
  rw [allFlowResults_eq sys.cfg σ sys.n (List.nodup_append.1 hl).1 hnd hr, ok_bind]
  unfold elementTable
  rw [(element_lookup sys.cfg sys.n hl).2.2 l (by simpa [eq_comm] using fun c hc => (h1 c hc).1) (by simpa [eq_comm] using h2),
    (flow_lookup σ sys.n hnd).2 l fun c hc f hf => (h1 c hc).2 f hf]
  rfl

/-! ## Buses -/

/-- The table of a bus by the functions in its columns. -/
def busFns (σ : Assignment) (s : System) (b : BusData) (ki ko : ℚ) : List (String × (Nat → ℚ)) :=
  ((sideLabels Comp.outputs s b.label).map fun l => (l, fun t => σ (l ++ "_flow_rate") t * ki)) ++
    (if b.excessPenalty.isSome then [("Excess Input", fun t => σ (b.label ++ "_" ++ "excess_input") t * ki)] else []) ++
  (((sideLabels Comp.inputs s b.label).map fun l => (l, fun t => σ (l ++ "_flow_rate") t * ko)) ++
    (if b.excessPenalty.isSome then [("Excess Output", fun t => σ (b.label ++ "_" ++ "excess_output") t * ko)] else []))

theorem tableCols_fns (σ : Assignment) (n : Nat) (s : System) (b : BusData) (ki ko : ℚ) :
    tableCols σ n s b ki ko = (busFns σ s b ki ko).map fun q => (q.1, (List.range n).map q.2) := by
  unfold tableCols busFns sideCols exCols colVals
  cases b.excessPenalty <;> simp [Function.comp_def]

theorem shown_get {n : Nat} {w : Bool} {v : Nat → ℚ} {t : Nat} (ht : t < if w then n + 1 else n) : (shownValues n w v).getD t 0 = v (min t (n - 1)) := by
  simp [shownValues, List.getD_eq_getElem?_getD, ht]

/-- **C88, buses.**  `to_dataframe` of a bus has exactly one column for each flow at the bus and for excess that somewhere exceeds the threshold;
without a threshold and with opposite factors every row sums to zero, also the repeated one. -/
theorem C88_bus_partial (hv : sys.Valid) (h : systemModel sys s = .ok o) (hs : o.solver.Solves σ) (hn : 1 < sys.n) {times : List Int} (ht : times.length = sys.n + 1)
    (hl : (s.comps.map Comp.label ++ s.buses.map (·.label)).Nodup) (hub : ∀ b ∈ s.buses, OneUnderscore b.label)
    (hr : ∀ c ∈ s.comps, ∀ f ∈ c.flows, f.label ∉ ["OnOff", "PreventSimultaneousUsage", "MultipleSegments", "Investment"])
    {b : BusData} (hb : b ∈ s.buses) (hp : ∀ pen, b.excessPenalty = some pen → pen.Fits sys.n) (ki ko : ℚ) (thr : Option ℚ) (w : Bool) :
    ∃ fr, toDataframe sys.cfg σ sys.n times s b.label (some ki) (some ko) thr w = .ok fr ∧
      (∀ q, q ∈ fr.cols ↔
        (∃ c ∈ s.comps, ∃ f ∈ c.outputs, f.bus = b.label ∧ Exceeds thr sys.n (fun t => σ (c.label ++ "__" ++ f.label ++ "_flow_rate") t * ki) ∧
          q = (c.label ++ "__" ++ f.label, shownValues sys.n w fun t => σ (c.label ++ "__" ++ f.label ++ "_flow_rate") t * ki)) ∨
        (∃ c ∈ s.comps, ∃ f ∈ c.inputs, f.bus = b.label ∧ Exceeds thr sys.n (fun t => σ (c.label ++ "__" ++ f.label ++ "_flow_rate") t * ko) ∧
          q = (c.label ++ "__" ++ f.label, shownValues sys.n w fun t => σ (c.label ++ "__" ++ f.label ++ "_flow_rate") t * ko)) ∨
        (b.excessPenalty ≠ none ∧ Exceeds thr sys.n (fun t => σ (b.label ++ "_" ++ "excess_input") t * ki) ∧
          q = ("Excess Input", shownValues sys.n w fun t => σ (b.label ++ "_" ++ "excess_input") t * ki)) ∨
        (b.excessPenalty ≠ none ∧ Exceeds thr sys.n (fun t => σ (b.label ++ "_" ++ "excess_output") t * ko) ∧
          q = ("Excess Output", shownValues sys.n w fun t => σ (b.label ++ "_" ++ "excess_output") t * ko))) ∧
      (thr = none → ki = -ko → ∀ t < (if w then sys.n + 1 else sys.n), (fr.cols.map fun q => q.2.getD t 0).sum = 0) ∧
      fr.index = if fr.cols = [] then none else some (if w then times else times.dropLast) := by
  have hnd := flows_nodup h
  have hlc := (List.nodup_append.1 hl).1
  obtain ⟨fr, f1, f2, f3, f4⟩ := frame_of (inF := some ki) (outF := some ko) (thr := thr) (w := w) (l := b.label)
    (cols := busFns σ s b ki ko) hn ht (allFlowResults_eq sys.cfg σ sys.n hlc hnd hr) (by
      unfold elementTable
      rw [(element_lookup sys.cfg sys.n hl).2.1 b hb, (flow_lookup σ sys.n hnd).2 b.label fun d _ f _ e => full_ne_of_plain (hub b hb) e.symm]
      simp only
      rw [busTable_eq sys.cfg σ hn hlc hnd hr b ki ko, tableCols_fns])
  refine ⟨fr, f1, fun q => ?_, fun h1 h2 t htt => ?_, f4⟩
  · rw [f2]
    have side : ∀ (side : Comp → List FlowData) (k : ℚ), (∃ p ∈ (sideLabels side s b.label).map fun l => (l, fun t => σ (l ++ "_flow_rate") t * k), Exceeds thr sys.n p.2 ∧ q = (p.1, shownValues sys.n w p.2)) ↔
        ∃ c ∈ s.comps, ∃ f ∈ side c, f.bus = b.label ∧ Exceeds thr sys.n (fun t => σ (c.label ++ "__" ++ f.label ++ "_flow_rate") t * k) ∧
          q = (c.label ++ "__" ++ f.label, shownValues sys.n w fun t => σ (c.label ++ "__" ++ f.label ++ "_flow_rate") t * k) := by
      intro side k
      simp only [sideLabels, List.mem_map, List.mem_flatten, List.mem_filter, decide_eq_true_eq]
      constructor
      · rintro ⟨_, ⟨_, ⟨_, ⟨c, hc, rfl⟩, hx⟩, rfl⟩, h2, h3⟩
        obtain ⟨f, hff, rfl⟩ := List.mem_map.1 hx
        obtain ⟨hf, hfb⟩ : f ∈ side c ∧ f.bus = b.label := by simpa using hff
        exact ⟨c, hc, f, hf, hfb, h2, h3⟩
      · rintro ⟨c, hc, f, hf, hfb, h2, h3⟩
        exact ⟨_, ⟨_, ⟨_, ⟨c, hc, rfl⟩, List.mem_map.2 ⟨f, by simpa using ⟨hf, hfb⟩, rfl⟩⟩, rfl⟩, h2, h3⟩
    have ex : ∀ (key var : String) (k : ℚ), (∃ p ∈ (if b.excessPenalty.isSome then [(key, fun t => σ (b.label ++ "_" ++ var) t * k)] else []), Exceeds thr sys.n p.2 ∧ q = (p.1, shownValues sys.n w p.2)) ↔
        (b.excessPenalty ≠ none ∧ Exceeds thr sys.n (fun t => σ (b.label ++ "_" ++ var) t * k) ∧ q = (key, shownValues sys.n w fun t => σ (b.label ++ "_" ++ var) t * k)) := by
      intro key var k
      cases b.excessPenalty <;> simp
    rw [← side Comp.outputs ki, ← side Comp.inputs ko, ← ex "Excess Input" "excess_input" ki, ← ex "Excess Output" "excess_output" ko]
    unfold busFns
    simp only [List.mem_append, or_and_right, exists_or]
    exact or_assoc.trans (or_congr_right or_left_comm)
  · rw [f3 h1, List.map_map]
    have hm : min t (sys.n - 1) < sys.n := by omega
    obtain ⟨df, d1, _, _, _, d2⟩ := C58_partial hv h hs hb hp hn hlc hr
    rw [busTable_eq sys.cfg σ hn hlc hnd hr b (-1) 1] at d1
    cases d1
    have h0 := d2 _ hm
    rw [rowSum, tableCols_fns, List.map_map] at h0
    have e : ((busFns σ s b ki ko).map ((fun q : String × List ℚ => q.2.getD t 0) ∘ fun q => (q.1, shownValues sys.n w q.2))) =
        ((busFns σ s b (-1) 1).map ((fun q : String × List ℚ => q.2.getD (min t (sys.n - 1)) 0) ∘ fun q => (q.1, (List.range sys.n).map q.2))).map (· * ko) := by
      have g : ∀ v : Nat → ℚ, ((List.range sys.n).map v).getD (min t (sys.n - 1)) 0 = v (min t (sys.n - 1)) := fun v => by
        simp [List.getD_eq_getElem?_getD, hm]
      subst h2
      simp only [Function.comp_def, shown_get htt, g, List.map_map]
      unfold busFns
      cases b.excessPenalty <;> simp [Function.comp_def, mul_comm, mul_left_comm, mul_assoc]
    rw [e, List.sum_map_mul_right, List.map_id', h0, zero_mul]

/-! ## Examples and counterexamples -/

/-- The hypotheses are met. -/
example : ∃ o, systemModel exSys exSystem = .ok o ∧ o.solver.Solves exSystemSol ∧ 1 < exSys.n ∧ [0, 1, 2, 3].length = exSys.n + 1 ∧
    (exSystem.comps.map Comp.label ++ exSystem.buses.map (·.label)).Nodup ∧ (∀ c ∈ exSystem.comps, OneUnderscore c.label) ∧ (∀ b ∈ exSystem.buses, OneUnderscore b.label) ∧
    (∀ c ∈ exSystem.comps, ∀ f ∈ c.flows, f.label ∉ ["OnOff", "PreventSimultaneousUsage", "MultipleSegments", "Investment"]) ∧
    toDataframe exSys.cfg exSystemSol exSys.n [0, 1, 2, 3] exSystem "heat" (some 1) (some (-1)) (some (1 / 100000)) true =
      .ok ⟨[("Boiler__th", [2, 4, 1, 1]), ("Load__Q", [-2, -4, 0, 0]), ("Excess Output", [0, 0, -1, -1])], some [0, 1, 2, 3]⟩ := by
  obtain ⟨o, h, hs⟩ := exSystem_ok
  refine ⟨o, h, hs, by decide, by decide, by decide +kernel, ?_, ?_, by decide +kernel, by decide +kernel⟩
  · have : ∀ c ∈ exSystem.comps, ¬ ['_', '_'] <:+: c.label.toList := by decide +kernel
    exact this
  · have : ∀ b ∈ exSystem.buses, ¬ ['_', '_'] <:+: b.label.toList := by decide +kernel
    exact this

/-- A component labelled like a flow of another one. -/
def exClashSystem : System :=
  { effects := [{ label := "costs", isStandard := true, isObjective := true }]
    comps := [.plain { label := "Gen", inputs := [], outputs := [exSingleOut] }, .plain { label := "Gen__Q", inputs := [exSingleOut], outputs := [] }]
    buses := [{ label := "el", excessPenalty := none }] }

/-- **C88 fails** if a component is labelled like a flow: the system is modelled and solved, but neither of the two can be shown. -/
theorem C88_clash_wrong : (∃ o, systemModel exSys exClashSystem = .ok o ∧ o.solver.Solves (tableSol [])) ∧
    toDataframe exSys.cfg (tableSol []) exSys.n [0, 1, 2, 3] exClashSystem "Gen__Q" (some (-1)) (some 1) none true = .error .exception := by
  refine ⟨?_, by decide +kernel⟩
  obtain ⟨o, h, hs⟩ := builds_and_solves (σ := tableSol []) (r := systemModel exSys exClashSystem)
    (f := fun o : SysOut => MTree.node o.solver.vars o.solver.cons []) (by decide +kernel)
  exact ⟨o, h, hs.1, hs.2.1⟩

end Flix
