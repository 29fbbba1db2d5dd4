import Verif.Lemmas.AggRun
import Verif.Lemmas.Results
import Verif.Props.AggFull
import Verif.Props.Frames

/-!
# C111: an aggregated calculation from the data to the model
-/

namespace Flix

variable {sys : Sys} {s : System} {u : Declared} {q : AggRequest} {ext : Clusterer} {sel : List String} {o : AggOut} {m : PyomoModel}

/-! ## The series handed to the clustering -/

theorem arrays_labels (s : System) : s.arrays.map (·.1) = s.arrayLabels := by
  simp only [System.arrays, System.arrayLabels, Flix.arrayLabels, List.map_flatten, List.map_map, Function.comp_def]
  rfl

theorem arrays_mem (s : System) (l : String) (xs : List ℚ) : (l, xs) ∈ s.arrays ↔ s.HasSeries l xs := by
  unfold System.arrays System.HasSeries
  simp only [List.mem_flatten, List.mem_map]
  constructor
  · rintro ⟨_, ⟨q, hq, rfl⟩, hm⟩
    obtain ⟨r, hr, e⟩ := List.mem_map.1 hm
    obtain ⟨hr, ha⟩ := List.mem_filter.1 hr
    have hv := isArray_iff.1 ha
    obtain ⟨ys, hy, _⟩ := id hv
    obtain ⟨a, b⟩ := r
    simp only [Prod.mk.injEq] at e hy
    subst hy
    obtain ⟨e1, e2⟩ := e
    simp only [Num.values] at e2
    subst e2
    exact ⟨q, hq, a, hr, e1.symm, hv⟩
  · rintro ⟨q, hq, a, hr, rfl, hv⟩
    exact ⟨_, ⟨q, hq, rfl⟩, List.mem_map.2 ⟨(a, .v xs), List.mem_filter.2 ⟨hr, isArray_iff.2 hv⟩, rfl⟩⟩

theorem inserted_replaced {d : List (String × List ℚ)} (hd : (d.map (·.1)).Nodup) (el l : String) (a : Num) :
    Num.Replaced d (el ++ "__" ++ l) a (inserted d el l a) := by
  unfold inserted
  constructor
  · intro hv ys hy
    rw [isArray_iff.2 hv, pyLookup_of_mem hd hy]
  · intro hn
    cases h1 : isArray a with
    | false => rfl
    | true =>
      cases h2 : pyLookup d (el ++ "__" ++ l) with
      | none => rfl
      | some ys =>
        refine absurd ⟨isArray_iff.1 h1, ys, ?_⟩ hn
        unfold pyLookup at h2
        obtain ⟨z, hz, rfl⟩ := Option.map_eq_some_iff.1 h2
        have hk := List.find?_some hz
        simp only [decide_eq_true_eq] at hk
        rw [← hk]
        exact List.mem_of_find?_eq_some hz

/-- What is modelled in place of the data of the user. -/
theorem modelled_replaced {d : List (String × List ℚ)} (hd : (d.map (·.1)).Nodup) (s : System) : s.Replaced d (s.withSeries (inserted d)) := by
  refine ⟨system_bare _ s, ?_⟩
  rw [allSeries_with, List.forall₂_map_right_iff]
  refine List.forall₂_same.2 fun p _ => ⟨rfl, ?_⟩
  unfold ElSeries.via
  rw [List.forall₂_map_right_iff]
  exact List.forall₂_same.2 fun r _ => ⟨rfl, inserted_replaced hd _ _ _⟩

theorem run_inv (h : aggregatedRun sys s u q ext sel = .ok (o, m)) :
    ∃ ss ss' cl d, (∃ w, sys.dt ≠ [] ∧ (∀ x ∈ sys.dt, x = w) ∧ w ≠ 0 ∧ ∃ k : ℤ, q.hours = k * w) ∧ List.Forall₂ (fun l r => u.series l = .ok r) s.arrayLabels ss ∧
      seriesCollection ss = .ok ss' ∧ (∀ c ∈ s.arrays, c.2.length = sys.n) ∧ ext (q.ask u s s.arrays ss' (sys.dt.headD 0)) = .ok (cl, d) ∧
      aggregatedModel sys (q.modelled s d) q.model cl sel = .ok o ∧ translateModel o.solver = .ok m := by
  unfold aggregatedRun at h
  peel h with k, hk
  peel h with ss, hss
  peel h with ss', hss'
  peel h with dat, hdat
  peel h with r, hr
  peel h with o', ho
  peel h with m', hm
  cases h
  obtain ⟨w, w1, w2, w3, k', w4, _⟩ := (C65 _ _ _).1 hk
  have hfr : (∀ c ∈ s.arrays, c.2.length = sys.n) ∧ dat = s.arrays := by
    unfold checkFrame at hdat
    split at hdat
    · rename_i hc
      cases hdat
      exact ⟨fun c hcm => by simpa using List.all_eq_true.1 hc c hcm, rfl⟩
    · cases hdat
  obtain ⟨hl, rfl⟩ := hfr
  rw [arrays_labels] at hss
  exact ⟨ss, ss', r.1, r.2, ⟨w, w1, w2, w3, k', w4⟩, mapM_ok.1 hss, hss', hl, hr, ho, hm⟩

theorem series_ok {l : String} {r : AggSeries} (h : u.series l = .ok r) : r.label = l ∧
    (u.object l = none → r.group = none ∧ r.weight = none) ∧ ∀ i, u.object l = some i → r.group = u.group i ∧ r.weight = u.weight i := by
  unfold Declared.series at h
  cases ho : u.object l with
  | none => rw [ho] at h; cases h; simp
  | some i =>
    rw [ho] at h
    simp only [mkAggSeries] at h
    split at h
    · cases h
    · cases h; simp

theorem series_labels {ls : List String} {ss : List AggSeries} (h : List.Forall₂ (fun l r => u.series l = .ok r) ls ss) : ss.map (·.label) = ls := by
  induction h with
  | nil => rfl
  | cons a _ ih => rw [List.map_cons, ih, (series_ok a).1]

theorem group_count {ls : List String} {ss : List AggSeries} (h : List.Forall₂ (fun l r => u.series l = .ok r) ls ss) (g : String) :
    groupSize ss g = (ls.filter fun k => ∃ j ∈ u.object k, u.group j = some g).length := by
  unfold groupSize
  induction h with
  | nil => rfl
  | @cons l r ls ss hr _ ih =>
    obtain ⟨_, h1, h2⟩ := series_ok hr
    have key : r.group = some g ↔ ∃ j ∈ u.object l, u.group j = some g := by
      cases ho : u.object l with
      | none => simp [(h1 ho).1]
      | some i => simp [(h2 i ho).1]
    by_cases hc : r.group = some g
    · rw [List.filterMap_cons_some hc, List.filter_cons_of_pos (by simpa using key.1 hc), List.count_cons_self, ih, List.length_cons]
    · rw [List.filter_cons_of_neg (by rw [decide_eq_true_eq]; exact fun hk => hc (key.2 hk))]
      cases hg : r.group with
      | none => rw [List.filterMap_cons_none hg, ih]
      | some g' =>
        rw [List.filterMap_cons_some hg, List.count_cons_of_ne, ih]
        rintro rfl
        exact hc hg

theorem weight_share {ls : List String} {ss : List AggSeries} (h : List.Forall₂ (fun l r => u.series l = .ok r) ls ss) {l : String} {r : AggSeries} (hl : l ∈ ls)
    (hr : u.series l = .ok r) : u.Share ls l (groupWeight ss r) := by
  obtain ⟨_, h1, h2⟩ := series_ok hr
  unfold groupWeight
  refine ⟨fun i g hi hg => ?_, fun i x hi hg hx h0 => ?_, fun hn => ?_⟩
  · rw [(h2 i hi).1, hg]
    simp only
    rw [group_count h g]
    have hpos : (ls.filter fun k => ∃ j ∈ u.object k, u.group j = some g).length ≠ 0 := by
      have : l ∈ ls.filter fun k => ∃ j ∈ u.object k, u.group j = some g := List.mem_filter.2 ⟨hl, by simpa using ⟨i, hi, hg⟩⟩
      exact Nat.pos_iff_ne_zero.1 (List.length_pos_of_mem this)
    rw [if_neg hpos]
    have : ((ls.filter fun k => ∃ j ∈ u.object k, u.group j = some g).length : ℚ) ≠ 0 := by exact_mod_cast hpos
    field_simp
  · rw [(h2 i hi).1, hg]
    simp only [(h2 i hi).2, hx, orOne, h0, if_false]
  · cases ho : u.object l with
    | none => rw [(h1 ho).1]; simp only [(h1 ho).2, orOne]
    | some i =>
      obtain ⟨a, b⟩ := hn i (by rw [ho]; exact rfl)
      rw [(h2 i ho).1, a]
      simp only [(h2 i ho).2, b, orOne]

/-- **C111.**  An aggregated calculation that can be modelled has asked the clustering for exactly the series of the system that change over time, each under
its own label and with its own share, for the width of the steps and the periods the user chose.  What is modelled is the system in which each of these series
is replaced by the one predicted for it and nothing else changes; if only binary variables are tied, the system itself. -/
theorem C111_data (h : aggregatedRun sys s u q ext sel = .ok (o, m)) : ∃ ask cl d s', ext ask = .ok (cl, d) ∧
    (∀ l xs, (l, xs) ∈ ask.data ↔ s.HasSeries l xs) ∧ (ask.data.map (·.1)).Nodup ∧ (∀ c ∈ ask.data, c.2.length = sys.n) ∧
    ask.weights.map (·.1) = ask.data.map (·.1) ∧ (∀ p ∈ ask.weights, ∃ w, p.2 = some w ∧ u.Share (ask.data.map (·.1)) p.1 w) ∧
    ask.hours = q.hours ∧ ask.periods = q.periods ∧ (∀ w ∈ sys.dt, ask.resolution = w) ∧ (∃ k : ℤ, ask.hours = k * ask.resolution) ∧
    (ask.extreme = true ↔ ask.high ≠ [] ∨ ask.low ≠ []) ∧
    ((d.map (·.1)).Nodup → q.model.fixNonBinary = true → s.Replaced d s') ∧ (q.model.fixNonBinary = false → s' = s) ∧
    aggregatedModel sys s' q.model cl sel = .ok o ∧ translateModel o.solver = .ok m := by
  obtain ⟨ss, ss', cl, d, ⟨w, w1, w2, _, k, w3⟩, h1, h2, h3, h4, h5, h6⟩ := run_inv h
  obtain ⟨hn, rfl⟩ := collection_inv' h2
  have hlab := series_labels h1
  have hres : sys.dt.headD 0 = w := by
    cases hd : sys.dt with
    | nil => exact absurd hd w1
    | cons a as => exact w2 a (by rw [hd]; simp)
  refine ⟨_, cl, d, q.modelled s d, h4, arrays_mem s, ?_, h3, ?_, ?_, rfl, rfl, ?_, ⟨k, ?_⟩, ?_, ?_, ?_, h5, h6⟩
  · show (s.arrays.map (·.1)).Nodup
    rw [arrays_labels, ← hlab]; exact hn
  · show ((ss.map fun s => { s with weight := some (groupWeight ss s) }).map fun r => (r.label, r.weight)).map (·.1) = s.arrays.map (·.1)
    rw [arrays_labels, ← hlab, List.map_map, List.map_map]
    rfl
  · intro p hp
    obtain ⟨r', hr', rfl⟩ := List.mem_map.1 hp
    obtain ⟨r, hr, rfl⟩ := List.mem_map.1 hr'
    obtain ⟨l, hl, hlr⟩ := forall₂_mem_right h1 hr
    refine ⟨_, rfl, ?_⟩
    show u.Share (s.arrays.map (·.1)) r.label _
    rw [arrays_labels, (series_ok hlr).1]
    exact weight_share h1 hl hlr
  · intro x hx
    show sys.dt.headD 0 = x
    rw [hres, w2 x hx]
  · show q.hours = k * sys.dt.headD 0
    rw [hres, w3]
  · show (!(q.high.isEmpty && q.low.isEmpty)) = true ↔ q.high.map (u.labelOf s) ≠ [] ∨ q.low.map (u.labelOf s) ≠ []
    cases q.high <;> cases q.low <;> simp
  · intro hd hf
    unfold AggRequest.modelled
    rw [if_pos hf]
    exact modelled_replaced hd s
  · intro hf
    unfold AggRequest.modelled
    rw [if_neg (by simp [hf])]

/-! ## Peaks -/

theorem labelOf_some {i : Nat} (hu : u.Used s i) : ∃ p ∈ s.allSeries, ∃ r ∈ p.2, u.labelOf s i = some (p.1 ++ "__" ++ r.1) ∧ u.object (p.1 ++ "__" ++ r.1) = some i := by
  have key : ∀ l, l ∈ s.seriesLabels ↔ ∃ p ∈ s.allSeries, ∃ r ∈ p.2, p.1 ++ "__" ++ r.1 = l := by
    intro l
    simp only [System.seriesLabels, List.mem_flatten, List.mem_map]
    constructor
    · rintro ⟨_, ⟨p, hp, rfl⟩, hm⟩
      obtain ⟨r, hr, e⟩ := List.mem_map.1 hm
      exact ⟨p, hp, r, hr, e⟩
    · rintro ⟨p, hp, r, hr, e⟩
      exact ⟨_, ⟨p, hp, rfl⟩, List.mem_map.2 ⟨r, hr, e⟩⟩
  unfold Declared.labelOf
  obtain ⟨p, hp, r, hr, e⟩ := hu
  have hne : (s.seriesLabels.filter fun l => u.object l = some i) ≠ [] :=
    List.ne_nil_of_mem (List.mem_filter.2 ⟨(key _).2 ⟨p, hp, r, hr, rfl⟩, by simpa using e⟩)
  rw [List.getLast?_eq_some_getLast hne]
  have hm := List.getLast_mem hne
  obtain ⟨ha, hb⟩ := List.mem_filter.1 hm
  obtain ⟨p', hp', r', hr', e'⟩ := (key _).1 ha
  refine ⟨p', hp', r', hr', by rw [e'], by rw [e']; simpa using hb⟩

/-- **C111 (peaks).**  A series of the user that changes over time and is used in the system is named to the clustering by a column with its values. -/
theorem C111_peaks (h : aggregatedRun sys s u q ext sel = .ok (o, m)) : ∃ ask r, ext ask = .ok r ∧ (∀ l xs, (l, xs) ∈ ask.data ↔ s.HasSeries l xs) ∧
    List.Forall₂ (fun i l => ∀ xs, u.Holds s i (.v xs) → (Num.v xs).Varies → u.Used s i → ∃ k, l = some k ∧ (k, xs) ∈ ask.data) (q.high ++ q.low) (ask.high ++ ask.low) ∧
    ask.high.length = q.high.length := by
  obtain ⟨ss, ss', cl, d, _, _, _, _, h4, _⟩ := run_inv h
  refine ⟨_, _, h4, arrays_mem s, ?_, by simp [AggRequest.ask]⟩
  show List.Forall₂ _ (q.high ++ q.low) (q.high.map (u.labelOf s) ++ q.low.map (u.labelOf s))
  rw [← List.map_append, List.forall₂_map_right_iff]
  refine List.forall₂_same.2 fun i _ xs hh hv hu => ?_
  obtain ⟨p, hp, r, hr, e, e'⟩ := labelOf_some hu
  refine ⟨_, e, (arrays_mem s _ _).2 ⟨p, hp, r.1, ?_, rfl, hv⟩⟩
  have := hh p hp r hr e'
  rw [← this]
  exact hr

/-! ## Nothing to aggregate -/

theorem different_place {cl : ClusterData} (hd : cl.AllDifferent) {a b : Nat} (h : cl.SamePlace a b) : a = b := by
  obtain ⟨p, q, k, j, hp, hq, _, _, rfl, rfl, _⟩ := h
  have hp' := List.getElem?_eq_some_iff.1 hp
  have hq' := List.getElem?_eq_some_iff.1 hq
  obtain ⟨h1, e1⟩ := hp'
  obtain ⟨h2, e2⟩ := hq'
  have : p = q := (List.Nodup.getElem_inj_iff hd).1 (e1.trans e2.symm)
  rw [this]

theorem different_copies {cl : ClusterData} (hd : cl.AllDifferent) : cl.copies = ∅ := by
  unfold ClusterData.copies
  rw [Finset.filter_eq_empty_iff]
  intro b _
  unfold ClusterData.rep
  cases h : cl.order[b / cl.len]? with
  | none => simp
  | some k =>
    obtain ⟨h1, e1⟩ := List.getElem?_eq_some_iff.1 h
    have : cl.order.idxOf k = b / cl.len := by
      rw [← e1]
      exact List.Nodup.idxOf_getElem hd _ h1
    simp [this]

/-- **C111 (nothing to aggregate).**  If every period is a cluster of its own and the predicted data are the data, the aggregated calculation has exactly the
solutions of the full calculation, at the same cost. -/
theorem C111_full (hv : sys.Valid) (hn : sys.n ≠ 0) (hf : s.Fits sys.n) (hnd : (s.comps.map Comp.label).Nodup) (h : aggregatedRun sys s u q ext sel = .ok (o, m))
    {o' : SysOut} (h' : systemModel sys s = .ok o')
    (hext : ∀ ask cl d, (ask.data.map (·.1)).Nodup → ext ask = .ok (cl, d) → cl.AllDifferent ∧ cl.keys.Nodup ∧ cl.total ≤ sys.n ∧
      ∀ l xs ys, (l, xs) ∈ ask.data → (l, ys) ∈ d → ys = xs) :
    ∃ terms terms', objectiveTerms o.solver.objective = .ok terms ∧ objectiveTerms o'.solver.objective = .ok terms' ∧ ∀ (τ : Assignment) (v : ℚ),
      (∃ σ, o.solver.Solves σ ∧ (∀ x, o'.Physical x → σ x.label = τ x.label) ∧ termsVal σ terms = v) ↔
      (∃ σ, o'.solver.Solves σ ∧ (∀ x, o'.Physical x → σ x.label = τ x.label) ∧ termsVal σ terms' = v) := by
  obtain ⟨ss, ss', cl, d, _, h1, h2, h3, h4, h5, _⟩ := run_inv h
  have hnodup : (s.arrays.map (·.1)).Nodup := by
    rw [arrays_labels, ← series_labels h1]
    exact (collection_inv' h2).1
  obtain ⟨hd, hk, ht, hdat⟩ := hext _ _ _ hnodup h4
  have hsame : q.modelled s d = s := by
    unfold AggRequest.modelled
    split
    · refine system_same fun p hp r hr => ?_
      unfold inserted
      cases ha : isArray r.2 with
      | false => rfl
      | true =>
        obtain ⟨xs, hx, _⟩ := isArray_iff.1 ha
        have hm : (p.1 ++ "__" ++ r.1, xs) ∈ s.arrays := (arrays_mem s _ _).2 ⟨p, hp, r.1, by rw [← hx]; exact hr, rfl, by rw [← hx]; exact isArray_iff.1 ha⟩
        cases hl : pyLookup d (p.1 ++ "__" ++ r.1) with
        | none => rfl
        | some ys =>
          unfold pyLookup at hl
          obtain ⟨z, hz, rfl⟩ := Option.map_eq_some_iff.1 hl
          have hk := List.find?_some hz
          simp only [decide_eq_true_eq] at hk
          have := hdat _ _ z.2 hm (by rw [← hk]; exact List.mem_of_find?_eq_some hz)
          simp only
          rw [hx, this]
    · rfl
  rw [hsame] at h5
  obtain ⟨terms, terms', xs, e1, e2, _, _, hiff⟩ := C92 hv hn hf h5 h' hnd hk ht
  refine ⟨terms, terms', e1, e2, fun τ v => ?_⟩
  have hdev : ∀ x, cl.deviations τ x = ∅ := fun x => by unfold ClusterData.deviations; rw [different_copies hd]; rfl
  have hcost : deviationCost q.model cl xs τ = 0 := by
    unfold deviationCost
    split
    · simp [hdev]
    · rfl
  have hrep : o.Repeats s q.model cl sel τ := by
    intro x _
    refine ⟨fun _ a b hab => by rw [different_place hd hab], fun _ _ => ?_⟩
    rw [hdev, different_copies hd]
    have : pyRound 0 = 0 := by decide +kernel
    simp [this]
  rw [hiff τ v, hcost]
  simp only [add_zero, hrep, and_true]

end Flix
