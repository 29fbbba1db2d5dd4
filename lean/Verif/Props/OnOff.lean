import Verif.Lemmas.Comp

/-! # C06–C15: on/off states of flows and components -/

namespace Flix

/-! ## A small system used in the examples -/

def exCfg : Cfg := { eps := 1 / 100000, big := 10000000 }
def exSys : Sys := { n := 3, dt := [1, 1, 2], total := 4, prevDt := .s 1, cfg := exCfg }

theorem exSys_valid : exSys.Valid := by
  refine ⟨rfl, ?_, ?_, ?_⟩
  · intro d hd; simp [exSys] at hd; rcases hd with rfl | rfl <;> norm_num
  · simp [exSys]; norm_num
  · simp [exSys, exCfg]

def exOnOff : OnOffParams :=
  { consecOnMin := some (.s 2), consecOnMax := some (.v [3, 3, 4]), consecOffMin := some (.s 1), switchOnTotalMax := some 1,
    onHoursTotalMin := some 2 }

def exFlow : FlowData := { label := "f", size := .num 10, relMin := .s (1 / 5), relMax := .v [1, 1, 1 / 2], onOff := some exOnOff }

def exOn : Var := { label := "x", length := 3, lb := some (.s 0), previous := some (.s 4) }
def exDef : List (Var × Num × Num) := [(exOn, .s 1, .s 10)]

theorem exOnOff_fits : exOnOff.Fits 3 := by
  constructor <;> intro m hm <;> simp [exOnOff] at hm <;> subst hm <;> simp [Num.Fits, Num.isScalar, Num.len]

theorem exFlow_fits : exFlow.Fits 3 := by
  refine ⟨by simp [exFlow, Num.Fits, Num.isScalar], by simp [exFlow, Num.Fits, Num.len], by simp [exFlow], ?_⟩
  intro q hq; simp [exFlow] at hq; subst hq; exact exOnOff_fits

theorem exFlow_ok : ∃ o, flowModel exSys "c__f" exFlow = .ok o := ⟨_, rfl⟩

theorem exOnOff_ok : ∃ o, onOffModel exSys "c" exOnOff exDef = .ok o := ⟨_, rfl⟩

/-! ## C15: the run before the horizon -/

theorem historyOk_split {bs : List ℚ} (hb : ∀ x ∈ bs, x = 0 ∨ x = 1) {xs : List ℚ}
    (he : bs = xs ++ List.replicate (trailingOnes bs) 1) :
    HistoryOk bs ↔ xs = [] ∨ trailingOnes bs ≤ xs.length ∧ ∀ x ∈ xs.drop (trailingOnes bs), x = 0 := by
  have hlen : bs.length = xs.length + trailingOnes bs := by
    conv_lhs => rw [he]
    simp
  unfold HistoryOk
  generalize trailingOnes bs = k at *
  rw [hlen]
  constructor
  · rintro (h | ⟨h1, h2⟩)
    · left; exact List.length_eq_zero_iff.1 (by omega)
    · right
      refine ⟨by omega, fun x hx => ?_⟩
      rw [List.mem_iff_getElem] at hx
      obtain ⟨i, hi, rfl⟩ := hx
      rw [List.getElem_drop]
      rw [List.length_drop] at hi
      have := h2 (k + i) (by omega) (by omega)
      rw [he, List.getD_eq_getElem?_getD, List.getElem?_append_left (by omega), List.getElem?_eq_getElem (by omega)] at this
      simpa using this
  · rintro (h | ⟨h1, h2⟩)
    · left; rw [h]; simp
    · right
      refine ⟨by omega, fun i hi hi' => ?_⟩
      have hi2 : i < xs.length := by omega
      rw [he, List.getD_eq_getElem?_getD, List.getElem?_append_left hi2, List.getElem?_eq_getElem hi2]
      refine h2 _ ?_
      rw [List.mem_iff_getElem]
      exact ⟨i - k, by rw [List.length_drop]; omega, by rw [List.getElem_drop]; congr 1; omega⟩

/-- C15, exact: with one width for all steps before the horizon the code returns the total width of the trailing ones
exactly for the histories described by `HistoryOk`. -/
theorem C15_scalar_iff {eps d : ℚ} (h0 : 0 < eps) (h1 : eps < 1) (hd : d ≠ 0) {bs : List ℚ}
    (hb : ∀ x ∈ bs, x = 0 ∨ x = 1) :
    getConsecutiveDuration eps (.v bs) (.s d) = .ok (trailingOnes bs * d) ↔ HistoryOk bs := by
  obtain ⟨xs, he, hx⟩ := bin_split bs hb
  rw [historyOk_split hb he]
  have hbx : ∀ x ∈ xs, x = 0 ∨ x = 1 := fun x hx => hb x (by rw [he]; simp [hx])
  generalize trailingOnes bs = k at *
  rw [he, consec_scalar h0 h1 xs k d hx]
  simp only [Except.ok.injEq]
  rw [mul_left_inj' hd]
  by_cases hn : xs = []
  · simp [hn]
  · simp only [hn, if_false, false_or]
    have hdn : ∀ x ∈ xs.drop k, 0 ≤ x := fun x hx => by
      rcases hbx x (List.mem_of_mem_drop hx) with h | h <;> rw [h] <;> norm_num
    constructor
    · intro h
      split at h
      · rename_i hk
        refine ⟨hk, ?_⟩
        have hs : (xs.drop k).sum = 0 := by linarith
        intro x hx
        have := List.single_le_sum hdn x hx
        exact le_antisymm (by linarith) (hdn x hx)
      · rename_i hk
        have : xs.length = k := by exact_mod_cast h
        omega
    · rintro ⟨hk, hz⟩
      rw [if_pos hk, List.sum_eq_zero hz, zero_add]

/-- C15 for a series of widths before the horizon: correct for the histories of `HistoryOk`.  Missing: all other
histories, for which `C15_scalar_iff` and `C15_wrong` show that the code is wrong. -/
theorem C15_vector_partial {eps : ℚ} (h0 : 0 < eps) (h1 : eps < 1) {bs ds : List ℚ} {h : ℚ}
    (hb : ∀ x ∈ bs, x = 0 ∨ x = 1) (hh : HistoryOk bs) (hc : getConsecutiveDuration eps (.v bs) (.v ds) = .ok h) :
    h = (ds.drop (ds.length - trailingOnes bs)).sum := by
  obtain ⟨xs, he, hx⟩ := bin_split bs hb
  rw [historyOk_split hb he] at hh
  generalize trailingOnes bs = k at *
  rw [he] at hc
  exact consec_vector h0 h1 xs k ds hx hh hc

/-- C15 for a single state before the horizon: the width of the last step if it was on, otherwise nothing. -/
theorem C15_one_state {eps d : ℚ} (x : ℚ) (hb : x = 0 ∨ x = 1) (ds : List ℚ) :
    getConsecutiveDuration eps (.s x) (.s d) = .ok (if x = 1 then d else 0) ∧
    getConsecutiveDuration eps (.s x) (.v (ds ++ [d])) = .ok (if x = 1 then d else 0) := by
  rcases hb with rfl | rfl <;> simp [getConsecutiveDuration]

example : getConsecutiveDuration exCfg.eps (.s 1) (.v [1, 2, 5]) = .ok 5 := (C15_one_state 1 (.inr rfl) [1, 2]).2

/-- C15 is false in general: off in the last step although "one hour on" is returned; two hours on instead of one;
and one hour instead of two. -/
theorem C15_wrong :
    getConsecutiveDuration exCfg.eps (.v [1, 0]) (.s 1) = .ok 1 ∧ trailingOnes [1, 0] = 0 ∧
    getConsecutiveDuration exCfg.eps (.v [1, 1, 0, 1]) (.s 1) = .ok 2 ∧ trailingOnes [1, 1, 0, 1] = 1 ∧
    getConsecutiveDuration exCfg.eps (.v [0, 1, 1]) (.s 1) = .ok 1 ∧ trailingOnes [0, 1, 1] = 2 := by
  refine ⟨?_, ?_, ?_, ?_, ?_, ?_⟩ <;> decide +kernel

/-- A single previous value is always right. -/
theorem C15_single {x : ℚ} (hx : x = 0 ∨ x = 1) : HistoryOk [x] := by
  rcases hx with rfl | rfl
  · right
    have : trailingOnes [0] = 0 := by decide +kernel
    rw [this]
    refine ⟨by simp, fun i _ hi => ?_⟩
    simp at hi; subst hi; rfl
  · left; decide +kernel

example : HistoryOk [0, 0, 0, 1] ∧ ∀ x ∈ [(0 : ℚ), 0, 0, 1], x = 0 ∨ x = 1 := by
  have h1 : trailingOnes [0, 0, 0, 1] = 1 := by decide +kernel
  refine ⟨Or.inr ?_, by simp⟩
  rw [h1]
  refine ⟨by simp, fun i hi hi' => ?_⟩
  have : i = 1 ∨ i = 2 := by simp at hi'; omega
  rcases this with rfl | rfl <;> rfl

example : getConsecutiveDuration exCfg.eps (.v [0, 0, 0, 1]) (.v [1, 2, 5]) = .ok 5 := by decide +kernel

/-! ## C14: the state before the horizon -/

theorem previous_map {ds : List Var} (hl : ∀ d ∈ ds, 1 < d.length) :
    ds.mapM Var.previousValues = .ok (ds.map (·.previous)) := by
  rw [mapM_ok]
  induction ds with
  | nil => exact .nil
  | cons d ds ih =>
    refine .cons ?_ (ih fun x hx => hl x (by simp [hx]))
    unfold Var.previousValues
    rw [if_pos (hl d (by simp))]

theorem isOn_one {eps x : ℚ} : isOn eps x = 1 ↔ eps < |x| := by
  unfold isOn
  split
  · rename_i h; simp [not_lt.2 h]
  · rename_i h; simp [not_le.1 h]

/-- C14 for arrays: when all previous rates that are given are series of one length `m`, the state in each of the `m`
steps before the horizon is "on" exactly when some flow was above epsilon.  Missing: several scalar previous rates
(false, `C14_scalars_wrong`), mixtures of scalars and series and series of different lengths (refused, `C14_mixed`). -/
theorem C14_arrays_partial {eps : ℚ} {ds : List Var} {m : Nat} (hl : ∀ d ∈ ds, 1 < d.length)
    (hp : ∀ d ∈ ds, ∀ p, d.previous = some p → ∃ xs, p = .v xs ∧ xs.length = m)
    (hex : ∃ d ∈ ds, d.previous ≠ none) :
    ∃ bs, previousOnValues eps ds = .ok bs ∧ bs.length = m ∧
      ∀ i < m, (bs.getD i 0 = 1 ↔ ∃ d ∈ ds, ∃ xs, d.previous = some (.v xs) ∧ eps < |xs.getD i 0|) := by
  unfold previousOnValues
  rw [previous_map hl, ok_bind]
  obtain ⟨arrays, hA⟩ : ∃ as : List (List ℚ), (ds.map (·.previous)).filterMap id = as.map Num.v := by
    clear hex hl
    induction ds with
    | nil => exact ⟨[], rfl⟩
    | cons d ds ih =>
      obtain ⟨as, h⟩ := ih fun x hx => hp x (by simp [hx])
      cases hd : d.previous with
      | none => exact ⟨as, by simpa [hd] using h⟩
      | some p =>
        obtain ⟨xs, rfl, _⟩ := hp d (by simp) p hd
        exact ⟨xs :: as, by simpa [hd] using h⟩
  have hmem : ∀ xs, xs ∈ arrays ↔ ∃ d ∈ ds, d.previous = some (.v xs) := by
    intro xs
    have : Num.v xs ∈ (ds.map (·.previous)).filterMap id ↔ ∃ d ∈ ds, d.previous = some (.v xs) := by simp
    rw [← this, hA]; simp
  have hlen : ∀ xs ∈ arrays, xs.length = m := by
    intro xs hx
    obtain ⟨d, hd, hdp⟩ := (hmem xs).1 hx
    obtain ⟨ys, h1, h2⟩ := hp d hd _ hdp
    cases h1; exact h2
  have hne : arrays ≠ [] := by
    obtain ⟨d, hd, hdn⟩ := hex
    cases hdp : d.previous with
    | none => exact absurd hdp hdn
    | some p =>
      obtain ⟨xs, rfl, _⟩ := hp d hd p hdp
      intro he
      have := (hmem xs).2 ⟨d, hd, hdp⟩
      rw [he] at this; simp at this
  rw [hA]
  refine ⟨anyRows (arrays.map (·.map (isOn eps))), ?_, ?_⟩
  · unfold prevOnOfList
    match arrays, hne, hlen with
    | a :: as, _, hlen =>
      have hall : as.all (fun b => b.length == a.length) = true := by
        rw [List.all_eq_true]
        intro b hb
        rw [beq_iff_eq, hlen b (by simp [hb]), hlen a (by simp)]
      simp [Function.comp_def, List.filterMap_map] at hall ⊢
      exact hall
  · obtain ⟨h1, h2⟩ := anyRows_arrays (arrays.map (·.map (isOn eps))) m (by simpa using hne)
      (by intro r hr; obtain ⟨a, ha, rfl⟩ := List.mem_map.1 hr; simpa using hlen a ha)
      (by intro r hr x hx; obtain ⟨a, ha, rfl⟩ := List.mem_map.1 hr
          obtain ⟨y, _, rfl⟩ := List.mem_map.1 hx; exact isOn_bin _ _)
    refine ⟨h1, fun i hi => ?_⟩
    rw [h2 i hi]
    have hat : ∀ xs : List ℚ, xs.length = m → ((xs.map (isOn eps)).getD i 0 = 1 ↔ eps < |xs.getD i 0|) := by
      intro xs hxs
      simp only [List.getD_eq_getElem?_getD, List.getElem?_map]
      rw [List.getElem?_eq_getElem (by omega)]
      simp [isOn_one]
    constructor
    · rintro ⟨r, hr, hr1⟩
      obtain ⟨xs, hxs, rfl⟩ := List.mem_map.1 hr
      obtain ⟨d, hd, hdp⟩ := (hmem xs).1 hxs
      exact ⟨d, hd, xs, hdp, (hat xs (hlen xs hxs)).1 hr1⟩
    · rintro ⟨d, hd, xs, hdp, hx⟩
      have := (hmem xs).2 ⟨d, hd, hdp⟩
      exact ⟨_, List.mem_map.2 ⟨xs, this, rfl⟩, (hat xs (hlen xs this)).2 hx⟩

/-- What is known about a single flow before the horizon: nothing given means off. -/
def flowHistory (eps : ℚ) : Option Num → List ℚ
  | none => [0]
  | some (.s p) => [if eps < |p| then 1 else 0]
  | some (.v ps) => ps.map fun p => if eps < |p| then 1 else 0

theorem isOn_eq (eps p : ℚ) : isOn eps p = if eps < |p| then 1 else 0 := by
  unfold isOn
  split
  · rename_i h; rw [if_neg (not_lt.2 h)]
  · rename_i h; rw [if_pos (not_le.1 h)]

/-- C14 for one flow (every kind of previous rate): its own history. -/
theorem C14_single_partial {eps : ℚ} {d : Var} (hl : 1 < d.length) :
    previousOnValues eps [d] = .ok (flowHistory eps d.previous) := by
  unfold previousOnValues
  rw [previous_map (by simpa using hl), ok_bind]
  unfold prevOnOfList flowHistory
  rcases hd : d.previous with _ | (p | ps)
  · simp [hd]
  · simp [hd, isOn_eq]
  · simp [hd, anyRows, isOn_eq]

/-- C14, exact for scalars: previous rates given as numbers are used as *consecutive time steps*, one per flow. -/
theorem C14_scalars {eps : ℚ} {ds : List Var} (hl : ∀ d ∈ ds, 1 < d.length) {ps : List ℚ} (hne : ps ≠ [])
    (hp : ds.filterMap (·.previous) = ps.map .s) :
    previousOnValues eps ds = .ok (ps.map fun p => if eps < |p| then 1 else 0) := by
  unfold previousOnValues
  rw [previous_map hl, ok_bind]
  have e : (ds.map (·.previous)).filterMap id = ps.map .s := by rw [List.filterMap_map]; exact hp
  rw [e]
  unfold prevOnOfList
  have h1 : (ps.map Num.s).filterMap (fun a => match a with | .s x => some x | .v _ => none) = ps := by
    rw [List.filterMap_map]; simp [Function.comp_def]
  have h2 : (ps.map Num.s).filterMap (fun a => match a with | .s _ => none | .v xs => some xs) = ([] : List (List ℚ)) := by
    induction ps <;> simp
  simp only [h1, h2]
  simp [hne, isOn_eq]

def exP5 : Var := { label := "a", length := 3, previous := some (.s 5) }
def exP0 : Var := { label := "b", length := 3, previous := some (.s 0) }

/-- C14 is false for scalars: with two flows, the first one running (5) and the second one not (0), the last state
before the horizon is "off", and the component appears to have two steps of history. -/
theorem C14_scalars_wrong : previousOnValues exCfg.eps [exP5, exP0] = .ok [1, 0] ∧
    previousOnValues exCfg.eps [exP0, exP5] = .ok [0, 1] := by
  constructor <;> decide +kernel

/-- Scalars and series together are refused. -/
theorem C14_mixed : previousOnValues exCfg.eps [exP5, { label := "c", length := 3, previous := some (.v [1, 2]) }] =
    .error .value := by decide +kernel

example : ∃ d ∈ [({ label := "c", length := 3, previous := some (.v [1, 0]) } : Var), { label := "d", length := 3 }],
    d.previous ≠ none := by simp

/-! ## The generic on/off model -/

section generic

variable {sys : Sys} {el : String} {q : OnOffParams} {ds : List (Var × Num × Num)} {o : OnOffOut} {σ : Assignment}

/-- C08: if off states are modelled, exactly one of on and off is 1 in each step. -/
theorem C08_complementary (hv : sys.Valid) (hq : q.Fits sys.n)
    (hds : ∀ d ∈ ds, d.1.length = sys.n ∧ d.2.1.Fits sys.n ∧ d.2.2.Fits sys.n)
    (h : onOffModel sys el q ds = .ok o) (hs : o.tree.Solves σ) (hoff : q.consecOffMin ≠ none ∨ q.consecOffMax ≠ none) :
    ∃ off, o.off = some off ∧ ∀ t < sys.n,
      (σ o.on.label t = 1 ∧ σ off.label t = 0) ∨ (σ o.on.label t = 0 ∧ σ off.label t = 1) := by
  obtain ⟨h2, prevOn, hprev, hiff⟩ := onOff_iff hv hq hds h
  have hr := (hiff σ).1 hs
  obtain ⟨-, -, uoff, -⟩ := onOff_parts h
  have hsome : o.off.isSome = true := by
    rw [uoff]
    unfold OnOffParams.useOff OnOffParams.useConsecOff
    rcases hoff with h | h
    · simp [Option.isSome_iff_ne_none.2 h]
    · simp [Option.isSome_iff_ne_none.2 h]
  obtain ⟨off, hoff⟩ := Option.isSome_iff_exists.1 hsome
  refine ⟨off, hoff, fun t ht => ?_⟩
  obtain ⟨hb, he⟩ := hr.off off hoff t ht
  rcases hr.onBin t ht with h | h
  · right; rw [h] at he ⊢; exact ⟨rfl, by linarith⟩
  · left; rw [h] at he ⊢; exact ⟨rfl, by linarith⟩

/-- C09 (on hours): in every solution the duration variable is the length of the run that is going on, where the run may
have been going on for `before` hours before the first step; `before` is what the code computes from the history
(C15: correct for the histories of `HistoryOk`, see `C09_on_partial`). -/
theorem C09_on (hv : sys.Valid) (hq : q.Fits sys.n)
    (hds : ∀ d ∈ ds, d.1.length = sys.n ∧ d.2.1.Fits sys.n ∧ d.2.2.Fits sys.n)
    (h : onOffModel sys el q ds = .ok o) (hs : o.tree.Solves σ) (hon : q.consecOnMin ≠ none ∨ q.consecOnMax ≠ none) :
    ∃ dur prevOn before, o.consecOn = some dur ∧ previousOnValues sys.cfg.eps (ds.map (·.1)) = .ok prevOn ∧
      getConsecutiveDuration sys.cfg.eps (.v prevOn) sys.prevDt = .ok before ∧
      ∀ t < sys.n, RunUpTo (σ o.on.label) sys.width before t (σ dur.label t) := by
  obtain ⟨h2, prevOn, hprev, hiff⟩ := onOff_iff hv hq hds h
  have hr := (hiff σ).1 hs
  obtain ⟨-, -, -, -, ucon, -⟩ := onOff_parts h
  have hsome : o.consecOn.isSome = true := by
    rw [ucon]
    unfold OnOffParams.useConsecOn
    rcases hon with h | h
    · simp [Option.isSome_iff_ne_none.2 h]
    · simp [Option.isSome_iff_ne_none.2 h]
  obtain ⟨dur, hdur⟩ := Option.isSome_iff_exists.1 hsome
  obtain ⟨before, hbef, hrows⟩ := hr.durOn dur hdur
  exact ⟨dur, prevOn, before, hdur, hprev, hbef, dur_run hrows hr.onBin⟩

/-- C09 (off hours). -/
theorem C09_off (hv : sys.Valid) (hq : q.Fits sys.n)
    (hds : ∀ d ∈ ds, d.1.length = sys.n ∧ d.2.1.Fits sys.n ∧ d.2.2.Fits sys.n)
    (h : onOffModel sys el q ds = .ok o) (hs : o.tree.Solves σ) (hoff : q.consecOffMin ≠ none ∨ q.consecOffMax ≠ none) :
    ∃ dur prevOn before, o.consecOff = some dur ∧ previousOnValues sys.cfg.eps (ds.map (·.1)) = .ok prevOn ∧
      getConsecutiveDuration sys.cfg.eps (.v (prevOn.map (1 - ·))) sys.prevDt = .ok before ∧
      ∀ t < sys.n, RunUpTo (fun k => 1 - σ o.on.label k) sys.width before t (σ dur.label t) := by
  obtain ⟨h2, prevOn, hprev, hiff⟩ := onOff_iff hv hq hds h
  have hr := (hiff σ).1 hs
  obtain ⟨-, -, -, -, -, -, ucoff, -⟩ := onOff_parts h
  have hsome : o.consecOff.isSome = true := by
    rw [ucoff]
    unfold OnOffParams.useConsecOff
    rcases hoff with h | h
    · simp [Option.isSome_iff_ne_none.2 h]
    · simp [Option.isSome_iff_ne_none.2 h]
  obtain ⟨dur, hdur⟩ := Option.isSome_iff_exists.1 hsome
  obtain ⟨off, before, hoffv, hbef, hrows⟩ := hr.durOff dur hdur
  have heq : ∀ t < sys.n, σ off.label t = 1 - σ o.on.label t := by
    intro t ht; have := (hr.off off hoffv t ht).2; linarith
  exact ⟨dur, prevOn, before, hdur, hprev, hbef, fun t ht => run_congr heq ht
    (dur_run hrows (fun t ht => (hr.off off hoffv t ht).1) t ht)⟩

/-- C09 with the run before the horizon read from the history: for the histories of `HistoryOk` (every single previous
value, C15_single) and one width of the steps before.  Missing: other histories, see `C09_wrong`. -/
theorem C09_on_partial (hv : sys.Valid) (he1 : sys.cfg.eps < 1) (hq : q.Fits sys.n)
    (hds : ∀ d ∈ ds, d.1.length = sys.n ∧ d.2.1.Fits sys.n ∧ d.2.2.Fits sys.n)
    (h : onOffModel sys el q ds = .ok o) (hs : o.tree.Solves σ) (hon : q.consecOnMin ≠ none ∨ q.consecOnMax ≠ none)
    {prevOn : List ℚ} (hprev : previousOnValues sys.cfg.eps (ds.map (·.1)) = .ok prevOn) (hh : HistoryOk prevOn)
    {d : ℚ} (hd : sys.prevDt = .s d) (hd0 : d ≠ 0) :
    ∃ dur, o.consecOn = some dur ∧
      ∀ t < sys.n, RunUpTo (σ o.on.label) sys.width (trailingOnes prevOn * d) t (σ dur.label t) := by
  obtain ⟨dur, prevOn', before, h1, h2, h3, h4⟩ := C09_on hv hq hds h hs hon
  rw [hprev] at h2; cases h2
  have := (C15_scalar_iff hv.heps he1 hd0 (previousOn_bin hprev)).2 hh
  rw [← hd, h3] at this
  cases this
  exact ⟨dur, h1, h4⟩

/-- C10 (on hours): in every solution the runs respect the minimum and the maximum. -/
theorem C10_on (hv : sys.Valid) (hq : q.Fits sys.n)
    (hds : ∀ d ∈ ds, d.1.length = sys.n ∧ d.2.1.Fits sys.n ∧ d.2.2.Fits sys.n)
    (h : onOffModel sys el q ds = .ok o) (hs : o.tree.Solves σ) (hon : q.consecOnMin ≠ none ∨ q.consecOnMax ≠ none) :
    ∃ prevOn before, previousOnValues sys.cfg.eps (ds.map (·.1)) = .ok prevOn ∧
      getConsecutiveDuration sys.cfg.eps (.v prevOn) sys.prevDt = .ok before ∧
      RunsRespect sys.n (σ o.on.label) sys.width before (q.consecOnMin.map Num.at) (q.consecOnMax.map Num.at) := by
  obtain ⟨h2, prevOn, hprev, hiff⟩ := onOff_iff hv hq hds h
  have hr := (hiff σ).1 hs
  obtain ⟨dur, _, _, hdur, _, _, hrun⟩ := C09_on hv hq hds h hs hon
  obtain ⟨before, hbef, hrows⟩ := hr.durOn dur hdur
  have hrun := dur_run hrows hr.onBin
  refine ⟨prevOn, before, hprev, hbef, ?_, ?_, ?_⟩
  · intro m hm t x ht h1 h0 hx
    obtain ⟨m', hm', rfl⟩ := Option.map_eq_some_iff.1 hm
    have := hrows.min m' hm' t ht
    rw [h1, h0] at this
    rw [run_unique hx (hrun t (by omega))]
    linarith
  · intro m hm t x ht h1 hx
    obtain ⟨m', hm', rfl⟩ := Option.map_eq_some_iff.1 hm
    rw [run_unique hx (hrun t ht)]
    exact hrows.ub m' hm' t ht
  · intro m hm h1 h2
    obtain ⟨m', hm', rfl⟩ := Option.map_eq_some_iff.1 hm
    exact hrows.keep m' hm' h1 h2

/-- C10 (off hours). -/
theorem C10_off (hv : sys.Valid) (hq : q.Fits sys.n)
    (hds : ∀ d ∈ ds, d.1.length = sys.n ∧ d.2.1.Fits sys.n ∧ d.2.2.Fits sys.n)
    (h : onOffModel sys el q ds = .ok o) (hs : o.tree.Solves σ) (hoff : q.consecOffMin ≠ none ∨ q.consecOffMax ≠ none) :
    ∃ prevOn before, previousOnValues sys.cfg.eps (ds.map (·.1)) = .ok prevOn ∧
      getConsecutiveDuration sys.cfg.eps (.v (prevOn.map (1 - ·))) sys.prevDt = .ok before ∧
      RunsRespect sys.n (fun t => 1 - σ o.on.label t) sys.width before (q.consecOffMin.map Num.at)
        (q.consecOffMax.map Num.at) := by
  obtain ⟨h2, prevOn, hprev, hiff⟩ := onOff_iff hv hq hds h
  have hr := (hiff σ).1 hs
  obtain ⟨dur, _, _, hdur, _, _, _⟩ := C09_off hv hq hds h hs hoff
  obtain ⟨off, before, hoffv, hbef, hrows⟩ := hr.durOff dur hdur
  have heq : ∀ t < sys.n, 1 - σ o.on.label t = σ off.label t := by
    intro t ht; have := (hr.off off hoffv t ht).2; linarith
  have hrun := dur_run hrows (fun t ht => (hr.off off hoffv t ht).1)
  refine ⟨prevOn, before, hprev, hbef, ?_, ?_, ?_⟩
  · intro m hm t x ht h1 h0 hx
    obtain ⟨m', hm', rfl⟩ := Option.map_eq_some_iff.1 hm
    have := hrows.min m' hm' t ht
    rw [← heq _ ht, ← heq t (by omega), h1, h0] at this
    rw [run_unique (run_congr heq (by omega) hx) (hrun t (by omega))]
    linarith
  · intro m hm t x ht h1 hx
    obtain ⟨m', hm', rfl⟩ := Option.map_eq_some_iff.1 hm
    rw [run_unique (run_congr heq ht hx) (hrun t ht)]
    exact hrows.ub m' hm' t ht
  · intro m hm h1 h2
    obtain ⟨m', hm', rfl⟩ := Option.map_eq_some_iff.1 hm
    rw [heq 0 (by omega)]
    exact hrows.keep m' hm' h1 h2

/-- C11: every 0/1 schedule within the limits (`ScheduleOk`: total on hours, number of starts, runs), with values of the
defining variables that fit to it, extends to a solution of the on/off model; only variables of the on/off model are
changed. -/
theorem C11_complete (hv : sys.Valid) (hq : q.Fits sys.n)
    (hds : ∀ d ∈ ds, d.1.length = sys.n ∧ d.2.1.Fits sys.n ∧ d.2.2.Fits sys.n)
    (h : onOffModel sys el q ds = .ok o) (hpd : sys.prevDt.Nonneg) (hnn : q.NonnegLimits sys.n)
    {prevOn : List ℚ} (hprev : previousOnValues sys.cfg.eps (ds.map (·.1)) = .ok prevOn)
    {last : ℚ} (hlast : prevOn.getLast? = some last) {b : Nat → ℚ} (hs : ScheduleOk sys q prevOn last b)
    (hdis : ∀ d ∈ ds, d.1.label ∉ ooLabels el) (hrel : OnRel sys.n sys.cfg.eps (σ.set o.on.label b) o.on ds) :
    ∃ τ : Assignment, (∀ l ∉ ooLabels el, τ l = σ l) ∧ τ o.on.label = b ∧ o.tree.Solves τ :=
  onOff_complete hv hq hds h hpd hnn hprev hlast hs hdis hrel

/-- C12: switch-on exactly at starts, switch-off exactly at stops, the number of starts is their count and limited. -/
theorem C12_starts (hv : sys.Valid) (hq : q.Fits sys.n)
    (hds : ∀ d ∈ ds, d.1.length = sys.n ∧ d.2.1.Fits sys.n ∧ d.2.2.Fits sys.n)
    (h : onOffModel sys el q ds = .ok o) (hs : o.tree.Solves σ) :
    ∃ swOn swOff nr prevOn last, o.switchOn = some swOn ∧ o.switchOff = some swOff ∧ o.nrSwitchOn = some nr ∧
      previousOnValues sys.cfg.eps (ds.map (·.1)) = .ok prevOn ∧ prevOn.getLast? = some last ∧
      (∀ t < sys.n, (σ swOn.label t = 1 ↔ Starts (σ o.on.label) last t) ∧ (σ swOn.label t = 0 ∨ σ swOn.label t = 1)) ∧
      (∀ t < sys.n, (σ swOff.label t = 1 ↔ Stops (σ o.on.label) last t) ∧ (σ swOff.label t = 0 ∨ σ swOff.label t = 1)) ∧
      σ nr.label 0 = (startSteps (σ o.on.label) last sys.n).card ∧
      ∀ m, q.switchOnTotalMax = some m → ((startSteps (σ o.on.label) last sys.n).card : ℚ) ≤ m := by
  obtain ⟨h2, prevOn, hprev, hiff⟩ := onOff_iff hv hq hds h
  have hr := (hiff σ).1 hs
  obtain ⟨-, -, -, -, -, -, -, -, a, b, c, ea, eb, ec, -⟩ := onOff_parts h
  obtain ⟨last, hlast, hsw⟩ := hr.switch a b c ea eb ec
  have hlb : last = 0 ∨ last = 1 := previousOn_bin hprev last (List.mem_of_getLast? hlast)
  have hsb : ∀ t < sys.n, stateBefore (σ o.on.label) last t = 0 ∨ stateBefore (σ o.on.label) last t = 1 := by
    intro t ht
    cases t with
    | zero => exact hlb
    | succ t => exact hr.onBin t (by omega)
  have hdiff : ∀ t < sys.n, σ a.label t - σ b.label t = σ o.on.label t - stateBefore (σ o.on.label) last t := by
    intro t ht
    cases t with
    | zero => exact hsw.first
    | succ t => exact hsw.step t ht
  have hA : ∀ t < sys.n, (σ a.label t = 1 ↔ Starts (σ o.on.label) last t) := by
    intro t ht
    have h1 := hdiff t ht
    have h2 := hsw.one t ht
    unfold Starts
    rcases hsw.onBin t ht with ha | ha <;> rcases hsw.offBin t ht with hb | hb <;> rcases hr.onBin t ht with hc | hc <;>
      rcases hsb t ht with hd | hd <;> rw [ha, hb, hc, hd] at h1 <;> rw [ha, hb] at h2 <;> rw [ha, hc, hd] <;>
      first | (exfalso; norm_num at h1; done) | (exfalso; norm_num at h2; done) | norm_num
  have hB : ∀ t < sys.n, (σ b.label t = 1 ↔ Stops (σ o.on.label) last t) := by
    intro t ht
    have h1 := hdiff t ht
    have h2 := hsw.one t ht
    unfold Stops
    rcases hsw.onBin t ht with ha | ha <;> rcases hsw.offBin t ht with hb | hb <;> rcases hr.onBin t ht with hc | hc <;>
      rcases hsb t ht with hd | hd <;> rw [ha, hb, hc, hd] at h1 <;> rw [ha, hb] at h2 <;> rw [hb, hc, hd] <;>
      first | (exfalso; norm_num at h1; done) | (exfalso; norm_num at h2; done) | norm_num
  have hcount : σ c.label 0 = (startSteps (σ o.on.label) last sys.n).card := by
    rw [hsw.count]
    unfold startSteps
    rw [Finset.card_filter, Nat.cast_sum]
    apply Finset.sum_congr rfl
    intro k hk
    have hk := Finset.mem_range.1 hk
    by_cases hst : Starts (σ o.on.label) last k
    · rw [if_pos hst, (hA k hk).2 hst]; simp
    · rw [if_neg hst]
      rcases hsw.onBin k hk with h | h
      · rw [h]; simp
      · exact absurd ((hA k hk).1 h) hst
  refine ⟨a, b, c, prevOn, last, ea, eb, ec, hprev, hlast, fun t ht => ⟨hA t ht, hsw.onBin t ht⟩,
    fun t ht => ⟨hB t ht, hsw.offBin t ht⟩, hcount, fun m hm => ?_⟩
  rw [← hcount]; exact hr.switchMax c m ec hm

/-- C13: the total on hours are the widths of the steps in which the unit is on, and the limits hold. -/
theorem C13_total (hv : sys.Valid) (hq : q.Fits sys.n)
    (hds : ∀ d ∈ ds, d.1.length = sys.n ∧ d.2.1.Fits sys.n ∧ d.2.2.Fits sys.n)
    (h : onOffModel sys el q ds = .ok o) (hs : o.tree.Solves σ) :
    σ o.totalOnHours.label 0 = ∑ k ∈ onSteps (σ o.on.label) sys.n, sys.width k ∧
    (∀ m, q.onHoursTotalMin = some m → m ≤ ∑ k ∈ onSteps (σ o.on.label) sys.n, sys.width k) ∧
    (∀ m, q.onHoursTotalMax = some m → ∑ k ∈ onSteps (σ o.on.label) sys.n, sys.width k ≤ m) := by
  obtain ⟨h2, prevOn, hprev, hiff⟩ := onOff_iff hv hq hds h
  have hr := (hiff σ).1 hs
  have e : σ o.totalOnHours.label 0 = ∑ k ∈ onSteps (σ o.on.label) sys.n, sys.width k := by
    rw [hr.total, sum_onSteps hr.onBin]
  exact ⟨e, fun m hm => e ▸ hr.totalMin m hm, fun m hm => e ▸ hr.totalMax m hm⟩

end generic

/-! ## C06: flows with on/off parameters -/

/-- The size of a flow that is a number: as given, or `BIG` if none is given. -/
def FlowData.HasSize (cfg : Cfg) (f : FlowData) (S : ℚ) : Prop :=
  (f.size = .num S ∧ S ≠ 0) ∨ (f.size = .unset ∧ S = cfg.big)

theorem absBounds_size {cfg : Cfg} {f : FlowData} {S : ℚ} (h : f.HasSize cfg S) (hp : f.fixedProfile = none) :
    f.absBounds cfg = (f.relMin.map (· * S), f.relMax.map (· * S)) := by
  unfold FlowData.absBounds FlowData.relBounds FlowData.effSize
  rcases h with ⟨h, h0⟩ | ⟨h, rfl⟩
  · simp [h, hp, pyOr, h0]
  · simp [h, hp]

/-- C06: in every solution a flow is off and zero, or on and between `max ε (S * relative_minimum)` and
`S * relative_maximum`. -/
theorem C06_flow {sys : Sys} (hv : sys.Valid) {el : String} {f : FlowData} {o : FlowOut} {q : OnOffParams} {S : ℚ}
    {σ : Assignment} (hf : f.Fits sys.n) (h : flowModel sys el f = .ok o) (hq : f.onOff = some q)
    (hS : f.HasSize sys.cfg S) (hp : f.fixedProfile = none) (hs : o.tree.Solves σ) :
    ∃ oo, o.onOff = some oo ∧ ∀ t < sys.n,
      (σ oo.on.label t = 0 ∧ σ o.flowRate.label t = 0) ∨
      (σ oo.on.label t = 1 ∧ max sys.cfg.eps (S * f.relMin.at t) ≤ σ o.flowRate.label t ∧
        σ o.flowRate.label t ≤ S * f.relMax.at t) := by
  have hr := (flow_iff hv hf h σ).1 hs
  obtain ⟨h1, h2, h3, h4, h5, _⟩ := flow_inv h
  obtain ⟨hl, hlen, _⟩ := flowRate_ok h1
  cases ho : o.onOff with
  | none => rw [ho] at h2; rw [flowOnOff_none h2] at hq; simp at hq
  | some oo =>
    refine ⟨oo, rfl, ?_⟩
    rw [ho] at h2
    obtain ⟨q', hq', hoo⟩ := flowOnOff_some h2
    rw [hq] at hq'; cases hq'
    obtain ⟨ha1, ha2⟩ := hf.absBounds sys.cfg
    obtain ⟨_, prevOn, _, hiff⟩ := onOff_iff hv (hf.onOff q hq) (by simpa using ⟨hlen, ha1, ha2⟩) hoo
    have hrr := (hiff σ).1 (hr.onOff oo ho)
    intro t ht
    have hrel := hrr.onRel
    rw [absBounds_size hS hp] at hrel
    replace hrel := hrel t ht
    simp only at hrel
    rw [at_map hf.relMin ht, at_map hf.relMax ht, mul_comm _ S, mul_comm _ S] at hrel
    rcases hrr.onBin t ht with h | h
    · left; rw [h] at hrel ⊢; exact ⟨rfl, by linarith⟩
    · right; rw [h] at hrel ⊢; exact ⟨rfl, by linarith, by linarith⟩

/-- The labels of the variables of a flow without investment. -/
def flowLabels (el : String) : List String := [el ++ "_" ++ "flow_rate", el ++ "_" ++ "sumFlowHours"] ++ ooLabels el

/-- C06, converse: every schedule within the limits of the on/off parameters together with flow rates that are zero when
off and inside the limits when on (and with flow hours within their limits) is a solution of the flow's model. -/
theorem C06_converse {sys : Sys} (hv : sys.Valid) {el : String} {f : FlowData} {o : FlowOut} {q : OnOffParams} {S : ℚ}
    (hf : f.Fits sys.n) (h : flowModel sys el f = .ok o) (hq : f.onOff = some q)
    (hS : f.HasSize sys.cfg S) (hp : f.fixedProfile = none) (hpd : sys.prevDt.Nonneg) (hnn : q.NonnegLimits sys.n)
    {last : ℚ} (hlast : (flowHistory sys.cfg.eps f.previousFlowRate).getLast? = some last) {b r : Nat → ℚ}
    (hb : ScheduleOk sys q (flowHistory sys.cfg.eps f.previousFlowRate) last b)
    (hr : ∀ t < sys.n, (b t = 0 ∧ r t = 0) ∨
      (b t = 1 ∧ max sys.cfg.eps (S * f.relMin.at t) ≤ r t ∧ r t ≤ S * f.relMax.at t))
    (hmin : ∀ m, f.flowHoursTotalMin = some m → m ≤ ∑ k ∈ Finset.range sys.n, sys.width k * r k)
    (hmax : ∀ m, f.flowHoursTotalMax = some m → ∑ k ∈ Finset.range sys.n, sys.width k * r k ≤ m)
    (hlmin : ∀ m, f.loadFactorMin = some m → S * (sys.total * m) ≤ ∑ k ∈ Finset.range sys.n, sys.width k * r k)
    (hlmax : ∀ m, f.loadFactorMax = some m → ∑ k ∈ Finset.range sys.n, sys.width k * r k ≤ S * (sys.total * m))
    (σ : Assignment) :
    ∃ τ : Assignment, o.tree.Solves τ ∧ τ o.flowRate.label = r ∧ (∀ l ∉ flowLabels el, τ l = σ l) ∧
      ∃ oo, o.onOff = some oo ∧ τ oo.on.label = b := by
  obtain ⟨h1, h2, h3, h4, h5, _⟩ := flow_inv h
  obtain ⟨hl, hlen, _, _, hprevr, _⟩ := flowRate_ok h1
  have hfix : f.fixSize sys.cfg = S := by
    unfold FlowData.fixSize FlowData.effSize
    rcases hS with ⟨h, h0⟩ | ⟨h, rfl⟩
    · simp [h, pyOr, h0]
    · simp [h]
  have hinv : o.invest = none := by
    cases hi : o.invest with
    | none => rfl
    | some i =>
      rw [hi] at h3
      obtain ⟨q', hq', _⟩ := flowInvest_some h3
      rcases hS with ⟨h, _⟩ | ⟨h, _⟩ <;> rw [h] at hq' <;> simp at hq'
  cases ho : o.onOff with
  | none => rw [ho] at h2; rw [flowOnOff_none h2] at hq; simp at hq
  | some oo =>
    rw [ho] at h2
    obtain ⟨q', hq', hoo⟩ := flowOnOff_some h2
    rw [hq] at hq'; cases hq'
    obtain ⟨ha1, ha2⟩ := hf.absBounds sys.cfg
    have hds : ∀ d ∈ [(o.flowRate, f.absBounds sys.cfg)], d.1.length = sys.n ∧ d.2.1.Fits sys.n ∧ d.2.2.Fits sys.n := by
      simpa using ⟨hlen, ha1, ha2⟩
    obtain ⟨h2n, prevOn, hprev, _⟩ := onOff_iff hv (hf.onOff q hq) hds hoo
    have hpe : o.flowRate.previous = f.previousFlowRate := by rw [hprevr, if_pos (by omega)]
    have hpv : previousOnValues sys.cfg.eps [o.flowRate] = .ok (flowHistory sys.cfg.eps f.previousFlowRate) := by
      rw [C14_single_partial (by omega), hpe]
    have hrl : o.flowRate.label ∉ ooLabels el := by
      rw [hl]; simp [ooLabels, ooNames, ooP, String.append_assoc, String.append_right_inj]
    have hsl : o.sumFlowHours.label ∉ ooLabels el := by
      rw [h4]; simp [ooLabels, ooNames, ooP, String.append_assoc, String.append_right_inj]
    have hne : o.flowRate.label ≠ o.sumFlowHours.label := by
      rw [hl, h4]; simp [String.append_right_inj]
    let σ1 : Assignment := (σ.set o.sumFlowHours.label fun _ => ∑ k ∈ Finset.range sys.n, sys.width k * r k).set
      o.flowRate.label r
    have honl := (onOff_on_length hoo).2.1
    have hro : o.flowRate.label ≠ oo.on.label := by
      intro he; apply hrl; rw [he, honl]; simp [ooLabels, ooNames]
    obtain ⟨τ, t1, t2, t3⟩ := onOff_complete hv (hf.onOff q hq) hds hoo hpd hnn (by simpa using hpv) hlast hb (σ := σ1)
      (by simpa using hrl) (by
        rw [absBounds_size hS hp]
        intro t ht
        rw [set_same, set_other _ _ _ hro]
        simp only [σ1]
        rw [set_same]
        rw [at_map hf.relMin ht, at_map hf.relMax ht, mul_comm _ S, mul_comm _ S]
        rcases hr t ht with ⟨h1, h2⟩ | ⟨h1, h2, h3⟩
        · rw [h1, h2]; simp
        · rw [h1, mul_one, mul_one]; exact ⟨h2, h3⟩)
    have hτr : τ o.flowRate.label = r := by
      rw [t1 _ hrl]; funext t; exact set_same ..
    have hτs : τ o.sumFlowHours.label 0 = ∑ k ∈ Finset.range sys.n, sys.width k * r k := by
      rw [t1 _ hsl]; simp only [σ1]; rw [set_other _ _ _ hne.symm, set_same]
    refine ⟨τ, (flow_iff hv hf h τ).2 ?_, hτr, ?_, oo, rfl, t2⟩
    · refine ⟨?_, ?_, ?_, ?_, ?_, ?_, ?_, ?_, ?_, ?_, ?_, ?_⟩
      · intro hn; rw [hq] at hn; simp at hn
      · intro hn; rw [hq] at hn; simp at hn
      · intro _ t ht
        rw [hτr]
        rcases hr t ht with ⟨_, h⟩ | ⟨_, h, _⟩
        · exact h.ge
        · exact le_trans hv.heps.le (le_trans (le_max_left _ _) h)
      · rw [hτs, hτr]
      · intro m hm; rw [hτs]; exact hmin m hm
      · intro m hm; rw [hτs]; exact hmax m hm
      · intro _ _ i hi; rw [hinv] at hi; simp at hi
      · intro m hm _; rw [hτs, hfix]; exact hlmax m hm
      · intro _ _ i hi; rw [hinv] at hi; simp at hi
      · intro m hm _; rw [hτs, hfix]; exact hlmin m hm
      · intro oo' hoo'; rw [ho] at hoo'; cases hoo'; exact t3
      · intro i hi; rw [hinv] at hi; simp at hi
    · intro l hll
      simp only [flowLabels, List.mem_append, List.mem_cons, List.not_mem_nil, or_false, not_or] at hll
      rw [t1 l hll.2]
      funext t
      simp only [σ1]
      rw [set_other _ _ _ (by rw [hl]; exact hll.1.1), set_other _ _ _ (by rw [h4]; exact hll.1.2)]

/-! ## C07: components -/

/-- C07: in every solution a component with on/off parameters is on in a step exactly when some flow of it is on, that is
exactly when some flow is not zero. -/
theorem C07_component {sys : Sys} (hv : sys.Valid) {c : CompData} {o : CompOut} {q : OnOffParams} {σ : Assignment}
    (hf : ∀ f ∈ c.inputs ++ c.outputs, f.Fits sys.n) (hq : c.onOff = some q) (hqf : q.Fits sys.n)
    (h : compModel sys c = .ok o) (hs : o.tree.Solves σ) :
    ∃ oo, o.on = some oo ∧ ∀ t < sys.n,
      (σ oo.on.label t = 0 ∨ σ oo.on.label t = 1) ∧
      (σ oo.on.label t = 1 ↔ ∃ p ∈ o.flows, ∃ fo, p.2.onOff = some fo ∧ σ fo.on.label t = 1) ∧
      (σ oo.on.label t = 1 ↔ ∃ p ∈ o.flows, σ p.2.flowRate.label t ≠ 0) := by
  obtain ⟨s1, s2, _⟩ := (comp_solves h σ).2 hs
  obtain ⟨_, _, hon, _⟩ := comp_inv h
  unfold compOnOff at hon
  rw [hq] at hon
  obtain ⟨oo, hoo, hoe⟩ := map_ok.1 hon
  refine ⟨oo, hoe.symm, ?_⟩
  have hst : ∀ p ∈ o.flows, ∃ fo, p.2.onOff = some fo ∧ p.2.flowRate.length = sys.n ∧ p.1.Fits sys.n ∧ ∀ t < sys.n,
      (σ fo.on.label t = 0 ∧ σ p.2.flowRate.label t = 0) ∨ (σ fo.on.label t = 1 ∧ sys.cfg.eps ≤ σ p.2.flowRate.label t) := by
    intro p hp
    obtain ⟨f, hfm, hpf, hfl⟩ := comp_flow_mem h p hp
    obtain ⟨q', hq'⟩ := fillOnOff_onOff c f (Or.inl (by rw [hq]; simp))
    have hfit := fillOnOff_fits (c := c) (hf f hfm)
    obtain ⟨fo, h1, _, h3, h4⟩ := flow_state hv hfit hfl hq' (s1 p hp)
    refine ⟨fo, h1, h3, hpf ▸ hfit, fun t ht => ?_⟩
    rcases h4 t ht with h | ⟨h, h', _⟩
    · exact Or.inl h
    · exact Or.inr ⟨h, h'⟩
  have hds : ∀ d ∈ o.flows.map (fun q => (q.2.flowRate, q.1.absBounds sys.cfg)),
      d.1.length = sys.n ∧ d.2.1.Fits sys.n ∧ d.2.2.Fits sys.n := by
    intro d hd
    obtain ⟨p, hp, rfl⟩ := List.mem_map.1 hd
    obtain ⟨fo, _, hl, hfit, _⟩ := hst p hp
    exact ⟨hl, (hfit.absBounds sys.cfg).1, (hfit.absBounds sys.cfg).2⟩
  obtain ⟨_, prevOn, _, hiff⟩ := onOff_iff hv hqf hds hoo
  have hr := (hiff σ).1 (s2 oo hoe.symm)
  have heps := hv.heps
  intro t ht
  have hA : (σ oo.on.label t = 1 ↔ ∃ p ∈ o.flows, σ p.2.flowRate.label t ≠ 0) := by
    have hsum := onRel_sum hr.onRel ht (hr.onBin t ht)
    rw [List.map_map] at hsum
    simp only [Function.comp_def] at hsum
    have hnn : ∀ x ∈ o.flows.map (fun p => σ p.2.flowRate.label t), 0 ≤ x := by
      intro x hx
      obtain ⟨p, hp, rfl⟩ := List.mem_map.1 hx
      obtain ⟨fo, _, _, _, h4⟩ := hst p hp
      rcases h4 t ht with ⟨_, h⟩ | ⟨_, h⟩ <;> linarith
    constructor
    · intro h1
      rcases hsum with ⟨h0, _⟩ | ⟨_, hge⟩
      · rw [h1] at h0; norm_num at h0
      · by_contra hne
        push Not at hne
        have : (o.flows.map (fun p => σ p.2.flowRate.label t)).sum = 0 := by
          apply List.sum_eq_zero
          intro x hx
          obtain ⟨p, hp, rfl⟩ := List.mem_map.1 hx
          exact hne p hp
        linarith
    · rintro ⟨p, hp, hne⟩
      rcases hsum with ⟨_, hle⟩ | ⟨h1, _⟩
      · have h1 := List.single_le_sum hnn _ (List.mem_map.2 ⟨p, hp, rfl⟩)
        have h2 := hnn _ (List.mem_map.2 ⟨p, hp, rfl⟩)
        exact absurd (le_antisymm (by linarith) h2) hne
      · exact h1
  refine ⟨hr.onBin t ht, ?_, hA⟩
  rw [hA]
  refine exists_congr fun p => and_congr_right fun hp => ?_
  obtain ⟨fo, h1, _, _, h4⟩ := hst p hp
  rcases h4 t ht with ⟨ha, hb⟩ | ⟨ha, hb⟩
  · simp [h1, ha, hb]
  · simp only [h1, Option.some.injEq, exists_eq_left', ha, iff_true]
    intro h0; rw [h0] at hb; linarith

/-! ## Examples: the hypotheses of the theorems above are met by concrete models with solutions -/

/-- The limits of a schedule can be checked on its run lengths. -/
theorem respect_of_runH {n : Nat} {b w : Nat → ℚ} {before : ℚ} {lo hi : Option (Nat → ℚ)} (hb : ∀ t < n, b t = 0 ∨ b t = 1)
    (h1 : ∀ m, lo = some m → ∀ t, t + 1 < n → b t = 1 → b (t + 1) = 0 → m t ≤ runH b w before t)
    (h2 : ∀ m, hi = some m → ∀ t, t < n → b t = 1 → runH b w before t ≤ m t)
    (h3 : ∀ m, lo = some m → 0 < before → before < m 0 → b 0 = 1) : RunsRespect n b w before lo hi := by
  refine ⟨?_, ?_, h3⟩
  · intro m hm t x ht a1 a2 hx
    rw [run_unique hx (runH_run hb t (by omega))]; exact h1 m hm t ht a1 a2
  · intro m hm t x ht a1 hx
    rw [run_unique hx (runH_run hb t ht)]; exact h2 m hm t ht a1

/-- off, on, on -/
def exB (t : Nat) : ℚ := if t = 0 then 0 else 1

theorem exSchedule : ScheduleOk exSys exOnOff [0] 0 exB := by
  have hbin : ∀ t < exSys.n, exB t = 0 ∨ exB t = 1 := by intro t _; unfold exB; split <;> simp
  have hon : onSteps exB exSys.n = {1, 2} := by decide +kernel
  have hst : startSteps exB 0 exSys.n = {1} := by decide +kernel
  refine ⟨hbin, ?_, ?_, ?_, ?_, ?_⟩
  · intro m hm
    rw [hon]
    simp [exOnOff] at hm; subst hm
    rw [Finset.sum_pair (by decide)]
    simp [Sys.width, exSys]
  · intro m hm; simp [exOnOff] at hm
  · intro m hm; rw [hst]; simp [exOnOff] at hm; subst hm; simp
  · intro before hbef
    have : getConsecutiveDuration exSys.cfg.eps (.v [0]) exSys.prevDt = .ok 0 := by decide +kernel
    rw [this] at hbef; cases hbef
    refine respect_of_runH hbin ?_ ?_ (by intro m _ h; exact absurd h (lt_irrefl _))
    · intro m _ t ht h1 h0
      simp [exB] at h0
    · intro m hm t ht h1
      simp [exOnOff] at hm; subst hm
      have : t = 1 ∨ t = 2 := by
        have : t ≠ 0 := by rintro rfl; simp [exB] at h1
        have : t < 3 := ht
        omega
      rcases this with rfl | rfl
      · decide +kernel
      · decide +kernel
  · intro before hbef
    have : getConsecutiveDuration exSys.cfg.eps (.v ([(0 : ℚ)].map (1 - ·))) exSys.prevDt = .ok 1 := by decide +kernel
    rw [this] at hbef; cases hbef
    refine respect_of_runH (by intro t ht; rcases hbin t ht with h | h <;> simp [h]) ?_ ?_ ?_
    · intro m hm t ht h1 h0
      simp [exOnOff] at hm; subst hm
      have : t = 0 := by
        by_contra hne
        simp [exB, hne] at h1
      subst this
      decide +kernel
    · intro m hm; simp [exOnOff] at hm
    · intro m hm h1 h2
      simp [exB]

theorem exOnOff_nonneg : exOnOff.NonnegLimits 3 := by
  intro m hm t ht
  simp [exOnOff] at hm
  have : t = 0 ∨ t = 1 ∨ t = 2 := by omega
  rcases hm with rfl | rfl | rfl <;> rcases this with rfl | rfl | rfl <;> decide +kernel

/-- The flow of the example has a solution: C06, C08, C09, C10, C12, C13 are not about infeasible models. -/
theorem exFlow_solvable : ∃ o σ, flowModel exSys "c__f" exFlow = .ok o ∧ o.tree.Solves σ ∧
    (∀ t, σ o.flowRate.label t = 5 * exB t) ∧ ∃ oo, o.onOff = some oo ∧ σ oo.on.label = exB := by
  obtain ⟨o, ho⟩ := exFlow_ok
  obtain ⟨τ, h1, h2, _, h4⟩ := C06_converse exSys_valid exFlow_fits ho (q := exOnOff) (S := 10) rfl (Or.inl ⟨rfl, by norm_num⟩) rfl
    (by simp [exSys, Num.Nonneg]) exOnOff_nonneg (last := 0) rfl exSchedule (r := fun t => 5 * exB t) (by
      intro t ht
      have : t = 0 ∨ t = 1 ∨ t = 2 := by have : t < 3 := ht; omega
      rcases this with rfl | rfl | rfl
      · left; simp [exB]
      · right; refine ⟨by simp [exB], ?_, ?_⟩ <;> decide +kernel
      · right; refine ⟨by simp [exB], ?_, ?_⟩ <;> decide +kernel)
    (by simp [exFlow]) (by simp [exFlow]) (by simp [exFlow]) (by simp [exFlow]) (fun _ _ => 0)
  exact ⟨o, τ, ho, h1, fun t => by rw [h2], h4⟩

example : exOnOff.consecOffMin ≠ none ∧ exOnOff.consecOnMin ≠ none ∧ FlowData.HasSize exSys.cfg exFlow 10 :=
  ⟨by simp [exOnOff], by simp [exOnOff], Or.inl ⟨rfl, by norm_num⟩⟩

/-! ### C09 is false for histories with several values -/

/-- Flow that ran two steps ago and stood still in the step before the horizon. -/
def exFlowHist : FlowData :=
  { label := "f", size := .num 10, onOff := some { consecOnMin := some (.s 2) }, previousFlowRate := some (.v [5, 0]) }

/-- C09 fails: the flow was off directly before the horizon, but in every solution in which it is on in the first step
(width one hour) two consecutive on hours are reported.  In all solutions it is even forced to be on (C10). -/
theorem C09_wrong : ∃ o oo dur, flowModel exSys "c__f" exFlowHist = .ok o ∧ o.onOff = some oo ∧ oo.consecOn = some dur ∧
    previousOnValues exSys.cfg.eps [o.flowRate] = .ok [1, 0] ∧
    ∀ σ, o.tree.Solves σ → σ oo.on.label 0 = 1 ∧ σ dur.label 0 = 2 := by
  obtain ⟨o, ho⟩ : ∃ o, flowModel exSys "c__f" exFlowHist = .ok o := ⟨_, rfl⟩
  have hf : exFlowHist.Fits 3 := by
    refine ⟨by simp [exFlowHist, Num.Fits, Num.isScalar], by simp [exFlowHist, Num.Fits, Num.isScalar], by simp [exFlowHist], ?_⟩
    intro q hq; simp [exFlowHist] at hq; subst hq
    constructor <;> intro m hm <;> simp at hm; subst hm; simp
  obtain ⟨h1, h2, h3, h4, h5, _⟩ := flow_inv ho
  obtain ⟨hl, hlen, _, _, hprevr, _⟩ := flowRate_ok h1
  have hpe : o.flowRate.previous = some (.v [5, 0]) := by rw [hprevr]; rfl
  have hpv : previousOnValues exSys.cfg.eps [o.flowRate] = .ok [1, 0] := by
    rw [C14_single_partial (by rw [hlen]; decide), hpe]; decide +kernel
  cases hoo : o.onOff with
  | none => rw [hoo] at h2; exact absurd (flowOnOff_none h2) (by simp [exFlowHist])
  | some oo =>
    rw [hoo] at h2
    obtain ⟨q, hq, hm⟩ := flowOnOff_some h2
    simp [exFlowHist] at hq
    obtain ⟨ha1, ha2⟩ := hf.absBounds exSys.cfg
    obtain ⟨_, prevOn, hprev, hiff⟩ := onOff_iff exSys_valid (hf.onOff q (by simp [exFlowHist, hq])) (by simpa using ⟨hlen, ha1, ha2⟩) hm
    obtain ⟨-, -, -, -, ucon, -⟩ := onOff_parts hm
    have hsome : oo.consecOn.isSome = true := by rw [ucon, ← hq]; rfl
    obtain ⟨dur, hdur⟩ := Option.isSome_iff_exists.1 hsome
    refine ⟨o, oo, dur, ho, hoo, hdur, hpv, fun σ hσ => ?_⟩
    have hr := (hiff σ).1 (((flow_iff exSys_valid hf ho σ).1 hσ).onOff oo hoo)
    simp only [List.map_cons, List.map_nil] at hprev
    rw [hpv] at hprev; cases hprev
    obtain ⟨prev, hp, hrows⟩ := hr.durOn dur hdur
    have hval : getConsecutiveDuration exSys.cfg.eps (.v [1, 0]) exSys.prevDt = .ok 1 := by decide +kernel
    rw [hval] at hp; cases hp
    have hk : σ oo.on.label 0 = 1 := hrows.keep (.s 2) (by rw [← hq]) (by norm_num) (by show (1 : ℚ) < 2; norm_num)
    refine ⟨hk, ?_⟩
    rw [hrows.initial, hk]
    simp [Sys.width, exSys]; norm_num

/-! ### A component with two flows -/

def exComp : CompData :=
  { label := "c", inputs := [{ label := "in", size := .num 10 }], outputs := [{ label := "out", size := .num 8 }],
    onOff := some { onHoursTotalMin := some 2 } }

example : ∃ o, compModel exSys exComp = .ok o ∧ o.flows.length = 2 := ⟨_, rfl, rfl⟩

example : ∀ f ∈ exComp.inputs ++ exComp.outputs, f.Fits exSys.n := by
  intro f hf
  simp [exComp] at hf
  rcases hf with rfl | rfl <;>
    exact ⟨by simp [Num.Fits, Num.isScalar], by simp [Num.Fits, Num.isScalar], by simp, by simp⟩

end Flix
