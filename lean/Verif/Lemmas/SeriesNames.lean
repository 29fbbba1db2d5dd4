import Verif.Model.SeriesNames
import Verif.Spec.SeriesNames
import Verif.Lemmas.Keys8


/-!
# Labels of time series
-/

namespace Flix

theorem isArray_iff {a : Num} : isArray a = true ↔ a.Varies := by
  unfold isArray Num.Varies
  cases a with
  | s x => simp [makeScalar, Num.isScalar]
  | v xs =>
    cases xs with
    | nil => simp [makeScalar]
    | cons x xs =>
      simp only [makeScalar, Num.v.injEq, exists_eq_left']
      by_cases h : (x :: xs).all (fun y => decide (y = x)) = true
      · rw [if_pos h]
        simp only [List.all_eq_true, decide_eq_true_iff] at h
        simp only [Num.isScalar, Bool.not_true, Bool.false_eq_true, false_iff]
        rintro ⟨y, hy, z, hz, hne⟩
        exact hne ((h y hy).trans (h z hz).symm)
      · rw [if_neg h]
        simp only [List.all_eq_true, decide_eq_true_iff] at h
        push Not at h
        obtain ⟨y, hy, hne⟩ := h
        simp only [Num.isScalar, Bool.not_false, true_iff]
        exact ⟨y, hy, x, List.mem_cons_self, hne⟩

/-- The short labels of the arrays. -/
def shorts (l : ElSeries) : List String := (l.filter fun r => isArray r.2).map (·.1)

theorem shorts_append (a b : ElSeries) : shorts (a ++ b) = shorts a ++ shorts b := by simp [shorts]

theorem mem_shorts {l : ElSeries} {x : String} : x ∈ shorts l ↔ ∃ q ∈ l, isArray q.2 = true ∧ q.1 = x := by
  simp [shorts, and_assoc]

/-- Every short label ends in `s`. -/
def EndIn (s : String) (l : ElSeries) : Prop := ∀ q ∈ l, ∃ a, q.1 = a ++ s

/-- A list of series in pieces with different endings: labels are unique if they are in each piece. -/
theorem pieces_nodup {ps : List (String × ElSeries)} (hS : Apart (ps.map (·.1))) (hd : (ps.map (·.1)).Nodup) (he : ∀ p ∈ ps, EndIn p.1 p.2) :
    (shorts (ps.map (·.2)).flatten).Nodup ↔ ∀ p ∈ ps, (shorts p.2).Nodup := by
  have hfl : ∀ ls : List ElSeries, shorts ls.flatten = (ls.map shorts).flatten := by
    intro ls
    induction ls with
    | nil => rfl
    | cons a ls ih => rw [List.flatten_cons, shorts_append, ih, List.map_cons, List.flatten_cons]
  rw [hfl, List.nodup_flatten, List.map_map, List.pairwise_map]
  constructor
  · rintro ⟨h, _⟩ p hp
    exact h _ (List.mem_map_of_mem (f := shorts ∘ fun q : String × ElSeries => q.2) hp)
  · intro h
    refine ⟨?_, ?_⟩
    · intro l hl
      obtain ⟨p, hp, rfl⟩ := List.mem_map.1 hl
      exact h p hp
    · refine (List.pairwise_map.1 hd).imp_of_mem ?_
      intro p q hp hq hne x h1 h2
      obtain ⟨a, ha, _, rfl⟩ := mem_shorts.1 h1
      obtain ⟨b, hb, _, hab⟩ := mem_shorts.1 h2
      obtain ⟨u, hu⟩ := he p hp a ha
      obtain ⟨v, hv⟩ := he q hq b hb
      rw [hu, hv] at hab
      exact hne (apart_eq hS (List.mem_map_of_mem hq) (List.mem_map_of_mem hp) hab).1.symm

theorem endIn_opt (l : String) (o : Option Num) : EndIn l (givenSeries l o) := by
  intro q hq
  cases o with
  | none => simp [givenSeries] at hq
  | some x => simp [givenSeries] at hq; exact ⟨"", by rw [hq]; simp⟩

theorem endIn_one (l : String) (x : Num) : EndIn l [(l, x)] := by
  intro q hq
  rw [List.mem_singleton] at hq
  exact ⟨"", by rw [hq]; simp⟩

theorem endIn_eff (suffix : String) (d : EffDict) : EndIn ("_" ++ suffix) (effSeries suffix d) := by
  intro q hq
  obtain ⟨k, _, rfl⟩ := List.mem_map.1 hq
  exact ⟨_, by rw [String.append_assoc]⟩

theorem shorts_one (l : String) (x : Num) : (shorts [(l, x)]).Nodup := by
  unfold shorts
  by_cases h : isArray x = true <;> simp [h]

theorem shorts_opt (l : String) (o : Option Num) : (shorts (givenSeries l o)).Nodup := by
  cases o with
  | none => simp [givenSeries, shorts]
  | some x => exact shorts_one l x

theorem names_some {es : List EffectData} {l k : String} (h : names es l (some k) = true) : k = l := by simpa [names] using h

/-- The keys of a known dictionary name effects. -/
theorem known_key {es : List EffectData} {d : EffDict} (h : d.Known es) {q : Option String × Num} (hq : q ∈ d) {k : String} (hk : q.1 = some k) :
    k ∈ es.map (·.label) := by
  obtain ⟨e, he, hn⟩ := h.known q hq
  rw [hk] at hn
  exact names_some hn ▸ List.mem_map_of_mem he

theorem getD_inj {es : List EffectData} (hst : "Standard_Effect" ∉ es.map (·.label)) {a b : Option String}
    (ha : ∀ k, a = some k → k ∈ es.map (·.label)) (hb : ∀ k, b = some k → k ∈ es.map (·.label))
    (h : a.getD "Standard_Effect" = b.getD "Standard_Effect") : a = b := by
  cases a with
  | none =>
    cases b with
    | none => rfl
    | some k => exact absurd (by have := hb k rfl; rwa [← show "Standard_Effect" = k from h] at this) hst
  | some k =>
    cases b with
    | none => exact absurd (by have := ha k rfl; rwa [show k = "Standard_Effect" from h] at this) hst
    | some k' => exact congrArg some h

theorem nodup_shorts {l : ElSeries} (h : (l.map (·.1)).Nodup) : (shorts l).Nodup := List.Nodup.sublist (List.Sublist.map _ List.filter_sublist) h

theorem shorts_eff {es : List EffectData} (hst : "Standard_Effect" ∉ es.map (·.label)) (suffix : String) {d : EffDict} (h : d.Known es) :
    (shorts (effSeries suffix d)).Nodup := by
  refine nodup_shorts ?_
  rw [effSeries, List.map_map]
  refine List.pairwise_map.2 (h.once.imp_of_mem ?_)
  intro p q hp hq hpq heq
  have heq' : p.1.getD "Standard_Effect" = q.1.getD "Standard_Effect" := by
    simp only [Function.comp_apply] at heq
    rw [String.append_assoc, String.append_assoc] at heq
    exact append_left_inj'.1 heq
  have := getD_inj hst (fun k hk => known_key h hp hk) (fun k hk => known_key h hq hk) heq'
  obtain ⟨e, _, he⟩ := h.known p hp
  have h2 := hpq _ he
  rw [← this, he] at h2
  cases h2

theorem name_standard : IsName "Standard_Effect" := lit_name (by decide +kernel) (by decide +kernel)

/-- Short labels are names. -/
def Short (l : ElSeries) : Prop := ∀ q ∈ l, IsName q.1

theorem Short.append {a b : ElSeries} (ha : Short a) (hb : Short b) : Short (a ++ b) := fun q hq => (List.mem_append.1 hq).elim (ha q) (hb q)

theorem short_one {l : String} (hl : IsName l) (x : Num) : Short [(l, x)] := fun q hq => by rw [List.mem_singleton.1 hq]; exact hl

theorem short_opt {l : String} (hl : IsName l) (o : Option Num) : Short (givenSeries l o) := by
  cases o with
  | none => intro q hq; simp [givenSeries] at hq
  | some x => exact short_one hl x

theorem short_eff {es : List EffectData} (hes : ∀ l ∈ es.map (·.label), IsName l) {suffix : String} (hsu : IsName suffix) {d : EffDict} (h : d.Known es) :
    Short (effSeries suffix d) := by
  intro q hq
  obtain ⟨k, hk, rfl⟩ := List.mem_map.1 hq
  refine name_mid ?_ hsu
  cases hkk : k.1 with
  | none => exact name_standard
  | some x => exact hes x (known_key h hk hkk)

theorem nodup_shorts_iff {l : ElSeries} : (shorts l).Nodup ↔ l.Pairwise fun a b => isArray a.2 = true → isArray b.2 = true → a.1 ≠ b.1 := by
  unfold shorts List.Nodup
  rw [List.pairwise_map, List.pairwise_filter]

/-! ## On/off parameters -/

/-- The series of on/off parameters, in pieces. -/
def onOffPieces (o : Option OnOffParams) : List (String × ElSeries) :=
  [("_per_switch_on", (o.map fun p => effSeries "per_switch_on" p.effectsPerSwitchOn).getD []),
    ("_per_running_hour", (o.map fun p => effSeries "per_running_hour" p.effectsPerRunningHour).getD []),
    ("consecutive_on_hours_min", (o.map fun p => givenSeries "consecutive_on_hours_min" p.consecOnMin).getD []),
    ("consecutive_on_hours_max", (o.map fun p => givenSeries "consecutive_on_hours_max" p.consecOnMax).getD []),
    ("consecutive_off_hours_min", (o.map fun p => givenSeries "consecutive_off_hours_min" p.consecOffMin).getD []),
    ("consecutive_off_hours_max", (o.map fun p => givenSeries "consecutive_off_hours_max" p.consecOffMax).getD [])]

theorem onOffPieces_eq (o : Option OnOffParams) : onOffSeries o = ((onOffPieces o).map (·.2)).flatten := by
  cases o with
  | none => rfl
  | some p => simp [onOffSeries, onOffPieces, OnOffParams.series]

theorem endIn_nil (s : String) : EndIn s [] := fun q hq => by cases hq

theorem onOffPieces_end (o : Option OnOffParams) : ∀ p ∈ onOffPieces o, EndIn p.1 p.2 := by
  intro p hp
  simp only [onOffPieces, List.mem_cons, List.not_mem_nil, or_false] at hp
  cases o with
  | none => rcases hp with rfl | rfl | rfl | rfl | rfl | rfl <;> exact endIn_nil _
  | some q =>
    rcases hp with rfl | rfl | rfl | rfl | rfl | rfl
    · exact endIn_eff "per_switch_on" _
    · exact endIn_eff "per_running_hour" _
    all_goals exact endIn_opt _ _

theorem shorts_nil : (shorts []).Nodup := by simp [shorts]

theorem onOffPieces_nodup {es : List EffectData} (hst : "Standard_Effect" ∉ es.map (·.label)) {o : Option OnOffParams} (h : ∀ q, o = some q → q.Known es) :
    ∀ p ∈ onOffPieces o, (shorts p.2).Nodup := by
  intro p hp
  simp only [onOffPieces, List.mem_cons, List.not_mem_nil, or_false] at hp
  cases o with
  | none => rcases hp with rfl | rfl | rfl | rfl | rfl | rfl <;> exact shorts_nil
  | some q =>
    rcases hp with rfl | rfl | rfl | rfl | rfl | rfl
    · exact shorts_eff hst _ (h q rfl).starts
    · exact shorts_eff hst _ (h q rfl).hours
    all_goals exact shorts_opt _ _

theorem short_nil : Short [] := fun q hq => by cases hq

macro "lit" : term => `(lit_name (by decide +kernel) (by decide +kernel))

theorem onOff_short {es : List EffectData} (hes : ∀ l ∈ es.map (·.label), IsName l) {o : Option OnOffParams} (h : ∀ q, o = some q → q.Known es) :
    Short (onOffSeries o) := by
  cases o with
  | none => exact short_nil
  | some q =>
    exact (((((short_eff hes lit (h q rfl).starts).append (short_eff hes lit (h q rfl).hours)).append (short_opt lit _)).append (short_opt lit _)).append
      (short_opt lit _)).append (short_opt lit _)

/-! ## Flows, buses and effects -/

theorem flow_shorts {es : List EffectData} (hst : "Standard_Effect" ∉ es.map (·.label)) {f : FlowData} (h : f.Known es) : (shorts f.series).Nodup := by
  have : f.series = (([("relative_minimum", [("relative_minimum", f.relMin)]), ("relative_maximum", [("relative_maximum", f.relMax)]),
      ("fixed_relative_profile", givenSeries "fixed_relative_profile" f.fixedProfile), ("_per_flow_hour", effSeries "per_flow_hour" f.effectsPerFlowHour)] ++
      onOffPieces f.onOff).map (·.2)).flatten := by
    rw [FlowData.series, onOffPieces_eq]
    simp
  rw [this, pieces_nodup]
  · simp only [List.mem_append, List.mem_cons, List.not_mem_nil, or_false]
    rintro p ((rfl | rfl | rfl | rfl) | hp)
    · exact shorts_one _ _
    · exact shorts_one _ _
    · exact shorts_opt _ _
    · exact shorts_eff hst _ h.hours
    · exact onOffPieces_nodup hst h.onOff p hp
  · show Apart ["relative_minimum", "relative_maximum", "fixed_relative_profile", "_per_flow_hour", "_per_switch_on", "_per_running_hour",
      "consecutive_on_hours_min", "consecutive_on_hours_max", "consecutive_off_hours_min", "consecutive_off_hours_max"]
    decide +kernel
  · show ["relative_minimum", "relative_maximum", "fixed_relative_profile", "_per_flow_hour", "_per_switch_on", "_per_running_hour",
      "consecutive_on_hours_min", "consecutive_on_hours_max", "consecutive_off_hours_min", "consecutive_off_hours_max"].Nodup
    decide +kernel
  · simp only [List.mem_append, List.mem_cons, List.not_mem_nil, or_false]
    rintro p ((rfl | rfl | rfl | rfl) | hp)
    · exact endIn_one _ _
    · exact endIn_one _ _
    · exact endIn_opt _ _
    · exact endIn_eff "per_flow_hour" _
    · exact onOffPieces_end _ p hp

theorem flow_short {es : List EffectData} (hes : ∀ l ∈ es.map (·.label), IsName l) {f : FlowData} (h : f.Known es) : Short f.series := by
  refine (((?_ : Short _).append (short_opt lit _)).append (short_eff hes lit h.hours)).append (onOff_short hes h.onOff)
  exact (short_one (l := "relative_minimum") lit _).append (short_one (l := "relative_maximum") lit _)

theorem effect_known {es : List EffectData} {e : EffectData} (h : e.Known es) : EffDict.Known es (e.shareOperation.map fun q => (some q.1, q.2)) := by
  constructor
  · intro q hq
    obtain ⟨r, hr, rfl⟩ := List.mem_map.1 hq
    obtain ⟨x, hx, hx'⟩ := List.mem_map.1 (h.operation.2 r hr)
    exact ⟨x, hx, by simp [names, hx']⟩
  · refine List.pairwise_map.2 ((List.pairwise_map.1 h.operation.1).imp ?_)
    intro a b hab l hl
    have := names_some hl
    simp only [names, decide_eq_false_iff_not]
    rintro rfl
    exact hab this

theorem effect_shorts {es : List EffectData} (hst : "Standard_Effect" ∉ es.map (·.label)) {e : EffectData} (h : e.Known es) : (shorts e.series).Nodup := by
  have : e.series = ([("minimum_operation_per_hour", givenSeries "minimum_operation_per_hour" e.minOperationPerHour),
      ("maximum_operation_per_hour", givenSeries "maximum_operation_per_hour" e.maxOperationPerHour),
      ("_specific_share_to_other_effects_operation", effSeries "specific_share_to_other_effects_operation" (e.shareOperation.map fun q => (some q.1, q.2)))].map
      (·.2)).flatten := by
    simp [EffectData.series]
  rw [this, pieces_nodup]
  · simp only [List.mem_cons, List.not_mem_nil, or_false]
    rintro p (rfl | rfl | rfl)
    · exact shorts_opt _ _
    · exact shorts_opt _ _
    · exact shorts_eff hst _ (effect_known h)
  · show Apart ["minimum_operation_per_hour", "maximum_operation_per_hour", "_specific_share_to_other_effects_operation"]
    decide +kernel
  · show ["minimum_operation_per_hour", "maximum_operation_per_hour", "_specific_share_to_other_effects_operation"].Nodup
    decide +kernel
  · simp only [List.mem_cons, List.not_mem_nil, or_false]
    rintro p (rfl | rfl | rfl)
    · exact endIn_opt _ _
    · exact endIn_opt _ _
    · exact endIn_eff "specific_share_to_other_effects_operation" _

theorem effect_short {es : List EffectData} (hes : ∀ l ∈ es.map (·.label), IsName l) {e : EffectData} (h : e.Known es) : Short e.series :=
  ((short_opt lit _).append (short_opt lit _)).append (short_eff hes lit (effect_known h))

/-! ## Components -/

theorem factor_shorts {fs : List Factors} (h : ∀ d ∈ fs, (d.map (·.1)).Nodup) : (shorts (factorSeries fs)).Nodup ↔
    fs.Pairwise fun d d' => ∀ q ∈ d, ∀ q' ∈ d', q.1 = q'.1 → ¬ (q.2.Varies ∧ q'.2.Varies) := by
  rw [nodup_shorts_iff, factorSeries, List.pairwise_map, List.pairwise_flatten]
  constructor
  · rintro ⟨_, h2⟩
    refine h2.imp ?_
    rintro d d' hd q hq q' hq' heq ⟨v, v'⟩
    exact hd q hq q' hq' (isArray_iff.2 v) (isArray_iff.2 v') (by simp only [heq])
  · intro h2
    refine ⟨?_, h2.imp ?_⟩
    · intro d hd
      refine (List.pairwise_map.1 (h d hd)).imp ?_
      intro a b hab _ _ heq
      exact hab (append_left_inj'.1 heq)
    · intro d d' hd q hq q' hq' v v' heq
      exact hd q hq q' hq' (append_left_inj'.1 heq) ⟨isArray_iff.1 v, isArray_iff.1 v'⟩

theorem points_eq (c : ConvData) : pointSeries c.segments = c.points.map fun x => ("Stuetzstelle", x) := by
  unfold ConvData.points pointSeries
  generalize c.segments = segs
  induction segs with
  | nil => rfl
  | cons a segs ih =>
    simp only [List.map_cons, List.flatten_cons, List.map_append, List.flatten_append, List.flatMap_cons, ih]
    congr 1
    induction a.2 with
    | nil => rfl
    | cons p l ih => simp [ih]

theorem point_shorts (c : ConvData) : (shorts (pointSeries c.segments)).Nodup ↔ c.points.Pairwise fun a b => ¬ (a.Varies ∧ b.Varies) := by
  rw [nodup_shorts_iff, points_eq, List.pairwise_map]
  constructor
  · exact fun h => h.imp fun {a b} hab hv => hab (isArray_iff.2 hv.1) (isArray_iff.2 hv.2) rfl
  · exact fun h => h.imp fun {a b} hab v v' _ => hab ⟨isArray_iff.1 v, isArray_iff.1 v'⟩

theorem conv_shorts {es : List EffectData} (hst : "Standard_Effect" ∉ es.map (·.label)) {c : ConvData} (h : ∀ q, c.comp.onOff = some q → q.Known es)
    (hk : c.Keyed) : (shorts c.series).Nodup ↔ c.OneEach := by
  have : c.series = ((onOffPieces c.comp.onOff ++ [("_factor", factorSeries c.factors),
      ("Stuetzstelle", if c.factors.isEmpty then pointSeries c.segments else [])]).map (·.2)).flatten := by
    rw [ConvData.series, onOffPieces_eq]
    by_cases hc : c.factors.isEmpty = true
    · have : factorSeries c.factors = [] := by rw [List.isEmpty_iff.1 hc]; rfl
      simp [hc, this]
    · simp [hc]
  rw [this, pieces_nodup]
  · constructor
    · intro hh
      refine ⟨?_, fun h0 => ?_⟩
      · exact (factor_shorts fun d hd => (hk d hd).1).1 (hh ("_factor", factorSeries c.factors) (List.mem_append_right _ List.mem_cons_self))
      · have := hh ("Stuetzstelle", _) (List.mem_append_right _ (List.mem_cons_of_mem _ List.mem_cons_self))
        rw [if_pos (by rw [h0]; rfl)] at this
        exact (point_shorts c).1 this
    · intro hh p hp
      simp only [List.mem_append, List.mem_cons, List.not_mem_nil, or_false] at hp
      rcases hp with hp | rfl | rfl
      · exact onOffPieces_nodup hst h p hp
      · exact (factor_shorts fun d hd => (hk d hd).1).2 hh.factors
      · by_cases hc : c.factors.isEmpty = true
        · simp only [hc, if_true]
          exact (point_shorts c).2 (hh.points (List.isEmpty_iff.1 hc))
        · simp only [hc]
          exact shorts_nil
  · show Apart ["_per_switch_on", "_per_running_hour", "consecutive_on_hours_min", "consecutive_on_hours_max", "consecutive_off_hours_min",
      "consecutive_off_hours_max", "_factor", "Stuetzstelle"]
    decide +kernel
  · show ["_per_switch_on", "_per_running_hour", "consecutive_on_hours_min", "consecutive_on_hours_max", "consecutive_off_hours_min",
      "consecutive_off_hours_max", "_factor", "Stuetzstelle"].Nodup
    decide +kernel
  · intro p hp
    simp only [List.mem_append, List.mem_cons, List.not_mem_nil, or_false] at hp
    rcases hp with hp | rfl | rfl
    · exact onOffPieces_end _ p hp
    · intro q hq
      obtain ⟨k, _, rfl⟩ := List.mem_map.1 hq
      exact ⟨_, rfl⟩
    · intro q hq
      by_cases hc : c.factors.isEmpty = true
      · simp only [hc, if_true, points_eq] at hq
        obtain ⟨k, _, rfl⟩ := List.mem_map.1 hq
        exact ⟨"", by simp⟩
      · simp [hc] at hq

theorem storage_shorts (s : StorageData) : (shorts s.series).Nodup := by
  refine nodup_shorts ?_
  show ["relative_minimum_charge_state", "relative_maximum_charge_state", "eta_charge", "eta_discharge", "relative_loss_per_hour"].Nodup
  decide +kernel

theorem trans_shorts {es : List EffectData} (hst : "Standard_Effect" ∉ es.map (·.label)) {c : TransData} (h : ∀ q, c.onOff = some q → q.Known es) :
    (shorts c.series).Nodup := by
  have : c.series = ((onOffPieces c.onOff ++ [("relative_losses", givenSeries "relative_losses" c.relLosses),
      ("absolute_losses", givenSeries "absolute_losses" c.absLosses)]).map (·.2)).flatten := by
    rw [TransData.series, onOffPieces_eq]
    simp
  rw [this, pieces_nodup]
  · intro p hp
    simp only [List.mem_append, List.mem_cons, List.not_mem_nil, or_false] at hp
    rcases hp with hp | rfl | rfl
    · exact onOffPieces_nodup hst h p hp
    all_goals exact shorts_opt _ _
  · show Apart ["_per_switch_on", "_per_running_hour", "consecutive_on_hours_min", "consecutive_on_hours_max", "consecutive_off_hours_min",
      "consecutive_off_hours_max", "relative_losses", "absolute_losses"]
    decide +kernel
  · show ["_per_switch_on", "_per_running_hour", "consecutive_on_hours_min", "consecutive_on_hours_max", "consecutive_off_hours_min",
      "consecutive_off_hours_max", "relative_losses", "absolute_losses"].Nodup
    decide +kernel
  · intro p hp
    simp only [List.mem_append, List.mem_cons, List.not_mem_nil, or_false] at hp
    rcases hp with hp | rfl | rfl
    · exact onOffPieces_end _ p hp
    all_goals exact endIn_opt _ _

theorem onOff_shorts {es : List EffectData} (hst : "Standard_Effect" ∉ es.map (·.label)) {o : Option OnOffParams} (h : ∀ q, o = some q → q.Known es) :
    (shorts (onOffSeries o)).Nodup := by
  rw [onOffPieces_eq, pieces_nodup]
  · exact onOffPieces_nodup hst h
  · show Apart ["_per_switch_on", "_per_running_hour", "consecutive_on_hours_min", "consecutive_on_hours_max", "consecutive_off_hours_min",
      "consecutive_off_hours_max"]
    decide +kernel
  · show ["_per_switch_on", "_per_running_hour", "consecutive_on_hours_min", "consecutive_on_hours_max", "consecutive_off_hours_min",
      "consecutive_off_hours_max"].Nodup
    decide +kernel
  · exact onOffPieces_end o

/-- Only a converter can have two time series with the same label. -/
theorem comp_shorts {es : List EffectData} (hst : "Standard_Effect" ∉ es.map (·.label)) {c : Comp} (h : c.Known es)
    (hk : ∀ d, c = .converter d → d.Keyed) : (shorts c.series).Nodup ↔ ∀ d, c = .converter d → d.OneEach := by
  cases c with
  | plain c => exact ⟨fun _ d hd => (by cases hd), fun _ => onOff_shorts hst h.onOff⟩
  | converter c =>
    refine (conv_shorts hst h.onOff (hk c rfl)).trans ⟨fun hh d hd => ?_, fun hh => hh c rfl⟩
    cases hd
    exact hh
  | storage s => exact ⟨fun _ d hd => (by cases hd), fun _ => storage_shorts s⟩
  | transmission t => exact ⟨fun _ d hd => (by cases hd), fun _ => trans_shorts hst h.onOff⟩

theorem comp_short {es : List EffectData} (hes : ∀ l ∈ es.map (·.label), IsName l) {c : Comp} (h : c.Known es)
    (hfl : ∀ f ∈ c.flows, IsName f.label) (hk : ∀ d, c = .converter d → d.Keyed) : Short c.series := by
  cases c with
  | plain c => exact onOff_short hes h.onOff
  | converter c =>
    refine Short.append (onOff_short hes h.onOff) ?_
    by_cases hc : c.factors.isEmpty = true
    · rw [if_pos hc, points_eq]
      intro q hq
      obtain ⟨k, _, rfl⟩ := List.mem_map.1 hq
      exact (lit : IsName "Stuetzstelle")
    · rw [if_neg hc]
      intro q hq
      obtain ⟨k, hk1, rfl⟩ := List.mem_map.1 hq
      obtain ⟨d, hd, hk2⟩ := List.mem_flatten.1 hk1
      obtain ⟨f, hf, hfk⟩ := (hk c rfl d hd).2 k hk2
      have := name_mid (hfl f hf) (q := "factor") lit
      rw [hfk, String.append_assoc] at this
      exact this
  | storage s =>
    intro q hq
    simp only [Comp.series, StorageData.series, List.mem_cons, List.not_mem_nil, or_false] at hq
    rcases hq with rfl | rfl | rfl | rfl | rfl <;> dsimp only <;> exact lit
  | transmission t => exact ((onOff_short hes h.onOff).append (short_opt lit _)).append (short_opt lit _)

/-! ## The whole system -/

theorem userFlows_eq (c : Comp) : c.userFlows = c.flows := by cases c <;> rfl

theorem comp_name (c : Comp) : c.name = c.label := by cases c <;> rfl

theorem arrayLabels_eq (q : String × ElSeries) : Flix.arrayLabels q = (shorts q.2).map fun x => q.1 ++ "__" ++ x := by
  simp [Flix.arrayLabels, shorts, Function.comp_def]

section
variable {s : System} (hs : s.Named) (hr : s.Referred)
include hs

/-- The full labels of all elements are different. -/
theorem allSeries_labels : (s.allSeries.map (·.1)).Nodup := by
  have hfl : (s.allSeries.map (·.1)) = s.comps.map Comp.label ++ s.effects.map (·.label) ++
      (s.comps.map fun c => c.flows.map fun f => flowFull c.label f.label).flatten ++ s.buses.map (·.label) := by
    simp only [System.allSeries, List.map_append, List.map_map, List.map_flatten, Function.comp_def, comp_name, userFlows_eq]
  have hflow : ∀ l, l ∈ (s.comps.map fun c => c.flows.map fun f => flowFull c.label f.label).flatten →
      ∃ c f, l = flowFull c f := by
    intro l hl
    obtain ⟨m, hm, hl⟩ := List.mem_flatten.1 hl
    obtain ⟨c, _, rfl⟩ := List.mem_map.1 hm
    obtain ⟨f, _, rfl⟩ := List.mem_map.1 hl
    exact ⟨_, _, rfl⟩
  rw [hfl, List.nodup_append, List.nodup_append, List.nodup_append]
  refine ⟨⟨⟨hs.comps, hs.effects, ?_⟩, ?_, ?_⟩, hs.buses, ?_⟩
  · rintro a ha b hb
    obtain ⟨c, hc, rfl⟩ := List.mem_map.1 ha
    obtain ⟨e, he, rfl⟩ := List.mem_map.1 hb
    exact hs.comp_effect hc he
  · rw [List.nodup_flatten, List.pairwise_map]
    constructor
    · intro l hl
      obtain ⟨c, hc, rfl⟩ := List.mem_map.1 hl
      refine List.pairwise_map.2 ((List.pairwise_map.1 (hs.flowDistinct c hc)).imp_of_mem ?_)
      intro f g hf hg hne heq
      exact hne (flowFull_inj' (hs.flowNames c hc f hf) (hs.flowNames c hc g hg) heq).2
    · refine (List.pairwise_map.1 hs.comps).imp_of_mem ?_
      intro c d hc hd hne x h1 h2
      obtain ⟨f, hf, rfl⟩ := List.mem_map.1 h1
      obtain ⟨g, hg, heq⟩ := List.mem_map.1 h2
      exact hne (flowFull_inj' (hs.flowNames d hd g hg) (hs.flowNames c hc f hf) heq).1.symm
  · intro a ha b hb heq
    obtain ⟨c, f, rfl⟩ := hflow b hb
    rcases List.mem_append.1 ha with ha | ha
    · obtain ⟨d, hd, rfl⟩ := List.mem_map.1 ha
      exact name_ne_flowFull (hs.comp hd) heq
    · obtain ⟨d, hd, rfl⟩ := List.mem_map.1 ha
      exact name_ne_flowFull (hs.effect hd) heq
  · intro a ha b hb heq
    obtain ⟨d, hd, rfl⟩ := List.mem_map.1 hb
    rcases List.mem_append.1 ha with ha | ha
    · rcases List.mem_append.1 ha with ha | ha
      · obtain ⟨c, hc, rfl⟩ := List.mem_map.1 ha
        exact hs.comp_bus hc hd heq
      · obtain ⟨c, hc, rfl⟩ := List.mem_map.1 ha
        exact hs.bus_effect hd hc heq.symm
    · obtain ⟨c, f, rfl⟩ := hflow a ha
      exact name_ne_flowFull (hs.bus hd) heq.symm

theorem mem_allSeries {q : String × ElSeries} : q ∈ s.allSeries ↔ (∃ c ∈ s.comps, q = (c.label, c.series)) ∨ (∃ e ∈ s.effects, q = (e.label, e.series)) ∨
    (∃ c ∈ s.comps, ∃ f ∈ c.flows, q = (flowFull c.label f.label, f.series)) ∨ ∃ b ∈ s.buses, q = (b.label, b.series) := by
  simp only [System.allSeries, List.mem_append, List.mem_map, List.mem_flatten, comp_name, userFlows_eq, eq_comm (b := q), or_assoc]
  constructor
  · rintro (h | h | ⟨l, ⟨c, hc, rfl⟩, h⟩ | h)
    · exact Or.inl h
    · exact Or.inr (Or.inl h)
    · obtain ⟨f, hf, h⟩ := List.mem_map.1 h
      exact Or.inr (Or.inr (Or.inl ⟨c, hc, f, hf, h.symm⟩))
    · exact Or.inr (Or.inr (Or.inr h))
  · rintro (h | h | ⟨c, hc, f, hf, h⟩ | h)
    · exact Or.inl h
    · exact Or.inr (Or.inl h)
    · exact Or.inr (Or.inr (Or.inl ⟨_, ⟨c, hc, rfl⟩, List.mem_map.2 ⟨f, hf, h.symm⟩⟩))
    · exact Or.inr (Or.inr (Or.inr h))

include hr

theorem allSeries_short {q : String × ElSeries} (hq : q ∈ s.allSeries) : Short q.2 := by
  have hes : ∀ l ∈ s.effects.map (·.label), IsName l := by
    intro l hl
    obtain ⟨e, he, rfl⟩ := List.mem_map.1 hl
    exact hs.effect he
  rcases (mem_allSeries hs).1 hq with ⟨c, hc, rfl⟩ | ⟨e, he, rfl⟩ | ⟨c, hc, f, hf, rfl⟩ | ⟨b, hb, rfl⟩
  · exact comp_short hes (hr.comps c hc) (hs.flowNames c hc) fun d hd => hr.factors d (hd ▸ hc)
  · exact effect_short hes (hr.effects e he)
  · exact flow_short hes ((hr.comps c hc).flows f hf)
  · exact short_opt lit _

/-- The labels of the array series are different, unless a converter has two with the same label. -/
theorem arrays_nodup : s.arrayLabels.Nodup ↔ ∀ c, Comp.converter c ∈ s.comps → c.OneEach := by
  have inner : ∀ q : String × ElSeries, (Flix.arrayLabels q).Nodup ↔ (shorts q.2).Nodup := by
    intro q
    rw [arrayLabels_eq]
    refine List.nodup_map_iff ?_
    intro a b hab
    have h := congrArg String.toList hab
    simp only [String.toList_append, List.append_assoc, List.append_cancel_left_eq] at h
    exact String.toList_inj.1 h
  rw [System.arrayLabels, List.nodup_flatten, List.pairwise_map]
  constructor
  · rintro ⟨h, _⟩ c hc
    have := (inner _).1 (h _ (List.mem_map_of_mem (f := Flix.arrayLabels) ((mem_allSeries hs).2 (Or.inl ⟨_, hc, rfl⟩))))
    exact (comp_shorts hr.standard (hr.comps _ hc) (fun d hd => hr.factors d (hd ▸ hc))).1 this c rfl
  · intro h
    constructor
    · intro l hl
      obtain ⟨q, hq, rfl⟩ := List.mem_map.1 hl
      rw [inner]
      rcases (mem_allSeries hs).1 hq with ⟨c, hc, rfl⟩ | ⟨e, he, rfl⟩ | ⟨c, hc, f, hf, rfl⟩ | ⟨b, hb, rfl⟩
      · exact (comp_shorts hr.standard (hr.comps c hc) fun d hd => hr.factors d (hd ▸ hc)).2 fun d hd => h d (hd ▸ hc)
      · exact effect_shorts hr.standard (hr.effects e he)
      · exact flow_shorts hr.standard ((hr.comps c hc).flows f hf)
      · exact shorts_opt _ _
    · refine (List.pairwise_map.1 (allSeries_labels hs)).imp_of_mem ?_
      intro p q hp hq hne x h1 h2
      rw [arrayLabels_eq] at h1 h2
      obtain ⟨a, ha, rfl⟩ := List.mem_map.1 h1
      obtain ⟨b, hb, hab⟩ := List.mem_map.1 h2
      obtain ⟨a', ha', _, rfl⟩ := mem_shorts.1 ha
      obtain ⟨b', hb', _, rfl⟩ := mem_shorts.1 hb
      exact hne (split_last (allSeries_short hs hr hq b' hb').valid (allSeries_short hs hr hp a' ha').valid hab).1.symm
end

end Flix
