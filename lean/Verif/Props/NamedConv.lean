import Verif.Model.Named
import Verif.Props.Converters
import Verif.Props.Closed

/-!
# C112: what it means that a named converter is created without a warning
-/

namespace Flix

variable {sys : Sys} {o : CompOut} {σ : Assignment} {label : String} {q : Option OnOffParams} {r : Created}

/-- Every value of the parameter in the `n` time steps lies strictly between the bounds. -/
def Num.Between (n : Nat) (a : Num) (lo hi : ℚ) : Prop := ∀ t < n, lo < a.at t ∧ a.at t < hi

theorem values_at {n : Nat} {a : Num} (h : a.Fits n) (hn : 0 < n) (x : ℚ) : x ∈ a.values ↔ ∃ t < n, a.at t = x := by
  cases a with
  | s y => simp only [Num.values, List.mem_singleton, Num.at]; exact ⟨fun h => ⟨0, hn, h.symm⟩, fun ⟨_, _, h⟩ => h.symm⟩
  | v ys =>
    have hl : ys.length = n := by simpa [Num.Fits, Num.isScalar, Num.len] using h
    have hat : ∀ t, (ht : t < ys.length) → (Num.v ys).at t = ys[t] := by
      intro t ht
      match ys, ht with
      | [y], ht =>
        have : t = 0 := by simpa using ht
        subst this; rfl
      | y :: z :: zs, ht =>
        show (y :: z :: zs).getD t 0 = _
        simp [List.getD, List.getElem?_eq_getElem ht]
    simp only [Num.values]
    rw [List.mem_iff_getElem]
    constructor
    · rintro ⟨t, ht, rfl⟩; exact ⟨t, hl ▸ ht, hat t ht⟩
    · rintro ⟨t, ht, rfl⟩; exact ⟨t, hl.symm ▸ ht, (hat t (hl.symm ▸ ht)).symm⟩

theorem checkBounds_nil {n : Nat} {g : Given} {p e : String} {lo hi : ℚ} (h : g.data.Fits n) (hn : 0 < n) :
    checkBounds g p e lo hi = [] ↔ g.data.Between n lo hi := by
  unfold checkBounds
  rw [List.append_eq_nil_iff]
  have key : ∀ P : ℚ → Prop, (∀ x ∈ g.data.values, P x) ↔ ∀ t < n, P (g.data.at t) := by
    intro P
    constructor
    · intro hh t ht; exact hh _ ((values_at h hn _).2 ⟨t, ht, rfl⟩)
    · intro hh x hx; obtain ⟨t, ht, rfl⟩ := (values_at h hn _).1 hx; exact hh t ht
  have a := key (fun x => lo < x)
  have b := key (fun x => x < hi)
  have e1 : (if g.data.values.all (fun x => decide (lo < x)) then ([] : List Warned) else [⟨e, p, true, lo⟩]) = [] ↔ ∀ t < n, lo < g.data.at t := by
    rw [← a]; split_ifs with hc <;> simpa using hc
  have e2 : (if g.data.values.all (fun x => decide (x < hi)) then ([] : List Warned) else [⟨e, p, false, hi⟩]) = [] ↔ ∀ t < n, g.data.at t < hi := by
    rw [← b]; split_ifs with hc <;> simpa using hc
  rw [e1, e2]
  exact ⟨fun ⟨u, v⟩ t ht => ⟨u t ht, v t ht⟩, fun u => ⟨fun t ht => (u t ht).1, fun t ht => (u t ht).2⟩⟩

theorem operand_ok {g : Given} {a : Num} (h : g.operand = .ok a) : g = .num a := by
  cases g with
  | num b => simp only [Given.operand, Except.ok.injEq] at h; rw [h]
  | series b => cases h

/-- **C112 (Boiler).**  Every number, array and series is accepted; the constructor is silent exactly if the efficiency lies strictly between
0 and 1 in every time step; a boiler created silently never yields more heat than fuel, and less as soon as it burns any. -/
theorem C112_boiler {eta : Given} {qfu qth : FlowData} (hne : qfu.label ≠ qth.label) (hfit : eta.data.Fits sys.n) (hn : 0 < sys.n) :
    ∃ r, Boiler.create label eta qfu qth q = .ok r ∧ (r.warnings = [] ↔ eta.data.Between sys.n 0 1) ∧
      ∀ o σ, converterModel sys r.conv = .ok o → o.tree.Solves σ → ∀ t < sys.n,
        σ (rateL label qth.label) t = eta.data.at t * σ (rateL label qfu.label) t ∧
        (r.warnings = [] → 0 < σ (rateL label qfu.label) t →
          0 < σ (rateL label qth.label) t ∧ σ (rateL label qth.label) t < σ (rateL label qfu.label) t) := by
  refine ⟨_, rfl, checkBounds_nil hfit hn, fun o σ ho hs t ht => ?_⟩
  have hv := C31_simple hne hfit ho hs t ht
  refine ⟨hv, fun hw hp => ?_⟩
  obtain ⟨h0, h1⟩ := (checkBounds_nil hfit hn).1 hw t ht
  rw [hv]
  exact ⟨mul_pos h0 hp, by nlinarith⟩

/-- **C112 (Power2Heat).**  As for the boiler. -/
theorem C112_power2heat {eta : Given} {pel qth : FlowData} (hne : pel.label ≠ qth.label) (hfit : eta.data.Fits sys.n) (hn : 0 < sys.n) :
    ∃ r, Power2Heat.create label eta pel qth q = .ok r ∧ (r.warnings = [] ↔ eta.data.Between sys.n 0 1) ∧
      ∀ o σ, converterModel sys r.conv = .ok o → o.tree.Solves σ → ∀ t < sys.n,
        σ (rateL label qth.label) t = eta.data.at t * σ (rateL label pel.label) t ∧
        (r.warnings = [] → 0 < σ (rateL label pel.label) t →
          0 < σ (rateL label qth.label) t ∧ σ (rateL label qth.label) t < σ (rateL label pel.label) t) :=
  C112_boiler hne hfit hn

/-- **C112 (HeatPump).**  A heat pump created silently yields more heat than it takes electricity, but less than 20 times as much. -/
theorem C112_heatpump {cop : Given} {pel qth : FlowData} (hne : pel.label ≠ qth.label) (hfit : cop.data.Fits sys.n) (hn : 0 < sys.n) :
    ∃ r, HeatPump.create label cop pel qth q = .ok r ∧ (r.warnings = [] ↔ cop.data.Between sys.n 1 20) ∧
      ∀ o σ, converterModel sys r.conv = .ok o → o.tree.Solves σ → ∀ t < sys.n,
        σ (rateL label qth.label) t = cop.data.at t * σ (rateL label pel.label) t ∧
        (r.warnings = [] → 0 < σ (rateL label pel.label) t →
          σ (rateL label pel.label) t < σ (rateL label qth.label) t ∧ σ (rateL label qth.label) t < 20 * σ (rateL label pel.label) t) := by
  refine ⟨_, rfl, checkBounds_nil hfit hn, fun o σ ho hs t ht => ?_⟩
  have hv := C31_simple hne hfit ho hs t ht
  refine ⟨hv, fun hw hp => ?_⟩
  obtain ⟨h0, h1⟩ := (checkBounds_nil hfit hn).1 hw t ht
  rw [hv]
  exact ⟨by nlinarith, by nlinarith⟩

/-- **C112 (CoolingTower), partial.**  Numbers and arrays are accepted; a cooling tower created silently takes some electricity, but less
than the heat it removes.  Missing: series, which the code rejects (`C112_series_wrong`). -/
theorem C112_tower_partial {demand : Num} {pel qth : FlowData} (hne : pel.label ≠ qth.label) (hfit : demand.Fits sys.n) (hn : 0 < sys.n) :
    ∃ r, CoolingTower.create label (.num demand) pel qth q = .ok r ∧ (r.warnings = [] ↔ demand.Between sys.n 0 1) ∧
      ∀ o σ, converterModel sys r.conv = .ok o → o.tree.Solves σ → ∀ t < sys.n,
        σ (rateL label pel.label) t = demand.at t * σ (rateL label qth.label) t ∧
        (r.warnings = [] → 0 < σ (rateL label qth.label) t →
          0 < σ (rateL label pel.label) t ∧ σ (rateL label pel.label) t < σ (rateL label qth.label) t) := by
  have hnil := checkBounds_nil (g := .num demand) (p := "specific_electricity_demand") (e := label) (lo := 0) (hi := 1) hfit hn
  refine ⟨_, rfl, hnil, fun o σ ho hs t ht => ?_⟩
  have hv := C31_tower hne hfit ho hs t ht
  refine ⟨hv, fun hw hp => ?_⟩
  obtain ⟨h0, h1⟩ := hnil.1 hw t ht
  change 0 < demand.at t at h0
  change demand.at t < 1 at h1
  rw [hv]
  exact ⟨mul_pos h0 hp, by nlinarith⟩

/-- **C112 (CHP), partial.**  Numbers and arrays are accepted; the constructor is silent exactly if both efficiencies and their sum lie
strictly between 0 and 1 in every time step; a unit created silently yields heat and power, together less than the fuel.  Missing: series. -/
theorem C112_chp_partial {th el : Num} {qfu pel qth : FlowData} (h1 : qfu.label ≠ pel.label) (h2 : qfu.label ≠ qth.label)
    (h3 : pel.label ≠ qth.label) (hft : th.Fits sys.n) (hfe : el.Fits sys.n) (hn : 0 < sys.n) :
    ∃ r, CHP.create label (.num th) (.num el) qfu pel qth q = .ok r ∧
      (r.warnings = [] ↔ ∀ t < sys.n, 0 < th.at t ∧ 0 < el.at t ∧ th.at t + el.at t < 1) ∧
      ∀ o σ, converterModel sys r.conv = .ok o → o.tree.Solves σ → ∀ t < sys.n,
        σ (rateL label qth.label) t = th.at t * σ (rateL label qfu.label) t ∧
        σ (rateL label pel.label) t = el.at t * σ (rateL label qfu.label) t ∧
        (r.warnings = [] → 0 < σ (rateL label qfu.label) t →
          0 < σ (rateL label qth.label) t ∧ 0 < σ (rateL label pel.label) t ∧
          σ (rateL label qth.label) t + σ (rateL label pel.label) t < σ (rateL label qfu.label) t) := by
  obtain ⟨both, hb, hbf, hbv⟩ := zip_fits (f := (· + ·)) hfe hft
  have hc : CHP.create label (.num th) (.num el) qfu pel qth q = .ok ⟨chp label th el qfu pel qth q,
      checkBounds (.num th) "eta_th" label 0 1 ++ checkBounds (.num el) "eta_el" label 0 1 ++ checkBounds (.num both) "eta_th+eta_el" label 0 1⟩ := by
    unfold CHP.create
    simp only [Given.operand, ok_bind, Num.add, hb, except_pure, Given.data]
  have hw : (checkBounds (.num th) "eta_th" label 0 1 ++ checkBounds (.num el) "eta_el" label 0 1 ++
      checkBounds (.num both) "eta_th+eta_el" label 0 1) = [] ↔ ∀ t < sys.n, 0 < th.at t ∧ 0 < el.at t ∧ th.at t + el.at t < 1 := by
    rw [List.append_eq_nil_iff, List.append_eq_nil_iff, checkBounds_nil (g := .num th) (n := sys.n) hft hn,
      checkBounds_nil (g := .num el) (n := sys.n) hfe hn, checkBounds_nil (g := .num both) (n := sys.n) hbf hn]
    constructor
    · rintro ⟨⟨a, b⟩, c⟩ t ht
      have c2 := (c t ht).2
      change both.at t < 1 at c2
      rw [hbv t ht] at c2
      exact ⟨(a t ht).1, (b t ht).1, by linarith⟩
    · intro hh
      refine ⟨⟨fun t ht => ?_, fun t ht => ?_⟩, fun t ht => ?_⟩ <;> obtain ⟨a, b, c⟩ := hh t ht
      · change 0 < th.at t ∧ th.at t < 1; exact ⟨a, by linarith⟩
      · change 0 < el.at t ∧ el.at t < 1; exact ⟨b, by linarith⟩
      · change 0 < both.at t ∧ both.at t < 1; rw [hbv t ht]; exact ⟨by linarith, by linarith⟩
  refine ⟨_, hc, hw, fun o σ ho hs t ht => ?_⟩
  obtain ⟨a, b, c, _⟩ := C31_chp h1 h2 h3 hft hfe ho hs t ht
  refine ⟨a, b, fun hn' hp => ?_⟩
  obtain ⟨x, y, z⟩ := hw.1 hn' t ht
  rw [c, a, b]
  exact ⟨mul_pos x hp, mul_pos y hp, by nlinarith⟩

/-- **C112 (HeatPumpWithSource), partial.**  A number or array that is nowhere 1 is accepted; a heat pump created silently takes heat from its source, and electricity and this heat add up to the heat it yields.
Missing: series and a COP of 1, which the code rejects. -/
theorem C112_source_partial {cop : Num} {pel qab qth : FlowData} (h1 : pel.label ≠ qab.label) (h2 : pel.label ≠ qth.label)
    (h3 : qab.label ≠ qth.label) (hfit : cop.Fits sys.n) (hn : 0 < sys.n) (h1' : ∀ t < sys.n, cop.at t ≠ 1) :
    ∃ r, HeatPumpWithSource.create label (.num cop) pel qab qth q = .ok r ∧ (r.warnings = [] ↔ cop.Between sys.n 1 20) ∧
      ∀ o σ, converterModel sys r.conv = .ok o → o.tree.Solves σ → ∀ t < sys.n,
        σ (rateL label qth.label) t = cop.at t * σ (rateL label pel.label) t ∧
        (r.warnings = [] →
          σ (rateL label pel.label) t + σ (rateL label qab.label) t = σ (rateL label qth.label) t ∧
          (0 < σ (rateL label pel.label) t → 0 < σ (rateL label qab.label) t)) := by
  have hinv : ∃ i, (cop.map (· - 1)).inv = .ok i := by
    have hv : ∀ x ∈ (cop.map (· - 1)).values, x ≠ 0 := by
      intro x hx
      obtain ⟨t, ht, rfl⟩ := (values_at (fits_map.2 hfit) hn x).1 hx
      rw [at_map hfit ht]
      exact sub_ne_zero.2 (h1' t ht)
    generalize cop.map (· - 1) = a at hv
    cases a with
    | s x =>
      refine ⟨.s (1 / x), ?_⟩
      have : x ≠ 0 := hv x (List.mem_singleton.2 rfl)
      simp [Num.inv, this]
    | v xs =>
      refine ⟨.v (xs.map (1 / ·)), ?_⟩
      have : xs.any (· == 0) = false := by
        rw [List.any_eq_false]; intro x hx; simpa using hv x hx
      simp [Num.inv, this]
  obtain ⟨i, hi⟩ := hinv
  obtain ⟨hif, _⟩ := Num.inv_ok hi (fits_map.2 hfit)
  obtain ⟨f, hf, _, _⟩ := zip_fits (f := (· * ·)) hfit hif
  have hcv : ∃ c, heatPumpWithSource label cop pel qab qth q = .ok c := by
    unfold heatPumpWithSource
    simp only [hi, ok_bind, Num.mul, hf, except_pure]
    exact ⟨_, rfl⟩
  obtain ⟨c, hc⟩ := hcv
  have hcr : HeatPumpWithSource.create label (.num cop) pel qab qth q = .ok ⟨c, checkBounds (.num cop) "eta_th" label 1 20⟩ := by
    unfold HeatPumpWithSource.create
    simp only [Given.operand, ok_bind, hc, except_pure]
  have hw := checkBounds_nil (g := .num cop) (p := "eta_th") (e := label) (lo := 1) (hi := 20) hfit hn
  refine ⟨_, hcr, hw, fun o σ ho hs t ht => ?_⟩
  obtain ⟨a, b⟩ := C31_source h1 h2 h3 hfit hc ho hs t ht
  refine ⟨a, fun hnil => ?_⟩
  obtain ⟨l, _⟩ := hw.1 hnil t ht
  change 1 < cop.at t at l
  have hsum := b (by linarith)
  exact ⟨hsum, fun hp => by rw [a] at hsum; nlinarith⟩

/-- **C112 is false for series.**  The parameters of `CHP`, `CoolingTower` and `HeatPumpWithSource` are documented as "float or TS" and annotated
`Numeric_TS`, but whatever the data, a `TimeSeriesData` raises a `TypeError`, although the same data as an array is accepted. -/
theorem C112_series_wrong (a b : Num) (g : Given) (f1 f2 f3 : FlowData) :
    CHP.create label (.series a) (.num b) f1 f2 f3 q = .error .type ∧ CHP.create label g (.series b) f1 f2 f3 q = .error .type ∧
    CoolingTower.create label (.series a) f1 f2 q = .error .type ∧
    HeatPumpWithSource.create label (.series a) f1 f2 f3 q = .error .type ∧
    (∃ r, CoolingTower.create label (.num a) f1 f2 q = .ok r) :=
  ⟨rfl, rfl, rfl, rfl, _, rfl⟩

/-- **C112 is false for a COP of 1.**  The constructor of `HeatPump` warns and creates the unit; that of `HeatPumpWithSource` fails before
it can warn. -/
theorem C112_one_wrong (f1 f2 f3 : FlowData) :
    (∃ r, HeatPump.create label (.num (.s 1)) f1 f3 q = .ok r ∧ r.warnings ≠ []) ∧
    HeatPumpWithSource.create label (.num (.s 1)) f1 f2 f3 q = .error .zeroDivision := by
  refine ⟨⟨_, rfl, ?_⟩, ?_⟩
  · simp [checkBounds, Given.data, Num.values]
  · simp [HeatPumpWithSource.create, Given.operand, ok_bind, heatPumpWithSource, Num.map, Num.inv]
    rfl

/-! ## Examples -/

/-- A boiler with an efficiency given as a series. -/
def exSilent : Except Err CompOut := do
  let r ← Boiler.create "b" (.series (.v [9 / 10, 4 / 5, 1 / 2])) { label := "F", size := .num 100 } { label := "Q", size := .num 100 } none
  converterModel exSys r.conv

example : ∃ o, exSilent = .ok o ∧ o.tree.Solves (tableSol [("b__F_flow_rate", [10, 20, 30]), ("b__F_sumFlowHours", [90]),
    ("b__Q_flow_rate", [9, 16, 15]), ("b__Q_sumFlowHours", [55])]) := by
  exact builds_and_solves (by decide +kernel)

example : (Given.series (.v [9 / 10, 4 / 5, 1 / 2])).data.Fits exSys.n ∧ 0 < exSys.n := ⟨Or.inr rfl, by decide⟩

example : ∃ r, Boiler.create "b" (.series (.v [9 / 10, 4 / 5, 1 / 2])) { label := "F", size := .num 100 } { label := "Q", size := .num 100 } none = .ok r ∧
    r.warnings = [] := ⟨_, rfl, by decide +kernel⟩

example : ∃ r, Boiler.create "b" (.num (.v [9 / 10, 1, 1 / 2])) { label := "F", size := .num 100 } { label := "Q", size := .num 100 } none = .ok r ∧
    r.warnings = [⟨"b", "eta", false, 1⟩] := ⟨_, rfl, by decide +kernel⟩

/-- Two plausible efficiencies with an implausible sum: only the third check warns. -/
example : ∃ r, CHP.create "chp" (.num (.s (3 / 5))) (.num (.v [3 / 10, 1 / 2, 3 / 10])) { label := "F", size := .num 100 } { label := "P", size := .num 100 }
    { label := "Q", size := .num 100 } none = .ok r ∧ r.warnings = [⟨"chp", "eta_th+eta_el", false, 1⟩] := ⟨_, rfl, by decide +kernel⟩

example : ∃ r, CHP.create "chp" (.num (.s (1 / 2))) (.num (.v [1 / 5, 3 / 10, 1 / 4])) { label := "F", size := .num 100 } { label := "P", size := .num 40 }
    { label := "Q", size := .num 50 } none = .ok r ∧ r.warnings = [] := ⟨_, rfl, by decide +kernel⟩

example : ∃ r, HeatPumpWithSource.create "hp" (.num (.v [2, 3, 4])) { label := "P", size := .num 10 } { label := "A", size := .num 40 }
    { label := "Q", size := .num 40 } none = .ok r ∧ r.warnings = [] := by
  obtain ⟨r, h, hw⟩ := of_okB (p := fun r : Created => r.warnings.isEmpty) (r := HeatPumpWithSource.create "hp" (.num (.v [2, 3, 4]))
    { label := "P", size := .num 10 } { label := "A", size := .num 40 } { label := "Q", size := .num 40 } none) (by decide +kernel)
  exact ⟨r, h, List.isEmpty_iff.1 hw⟩

end Flix
