import Verif.Lemmas.Flow
import Mathlib.Algebra.BigOperators.Ring.Finset

/-! # Every schedule that respects the limits is a solution of the on/off model -/

namespace Flix

theorem lab_inj (p a b : String) : p ++ a = p ++ b ↔ a = b := String.append_right_inj p

theorem anyRows_bin : ∀ (rows : List (List ℚ)), (∀ r ∈ rows, ∀ x ∈ r, x = 0 ∨ x = 1) → ∀ x ∈ anyRows rows, x = 0 ∨ x = 1
  | [], _ => by simp [anyRows]
  | [r], h => by simpa [anyRows] using h r (by simp)
  | r :: r' :: rs, _ => by
    intro x hx
    simp only [anyRows] at hx
    rw [List.mem_iff_getElem] at hx
    obtain ⟨i, hi, rfl⟩ := hx
    rw [List.getElem_zipWith]
    split <;> simp

theorem isOn_bin (eps x : ℚ) : isOn eps x = 0 ∨ isOn eps x = 1 := by unfold isOn; split <;> simp

theorem prevOnOfList_bin {eps : ℚ} {prevs : List Num} {l : List ℚ} (h : prevOnOfList eps prevs = .ok l) :
    ∀ x ∈ l, x = 0 ∨ x = 1 := by
  unfold prevOnOfList at h
  split at h
  · simp at h; subst h; simp
  · simp only at h
    split at h
    · simp only [Except.ok.injEq] at h; subst h
      intro x hx
      obtain ⟨y, _, rfl⟩ := List.mem_map.1 hx
      exact isOn_bin _ _
    · split at h
      · simp at h
      · split at h
        · simp at h
        · split at h
          · simp only [Except.ok.injEq] at h; subst h
            apply anyRows_bin
            intro r hr x hx
            obtain ⟨y, _, rfl⟩ := List.mem_map.1 hr
            obtain ⟨z, _, rfl⟩ := List.mem_map.1 hx
            exact isOn_bin _ _
          · simp at h

theorem previousOn_bin {eps : ℚ} {ds : List Var} {l : List ℚ} (h : previousOnValues eps ds = .ok l) :
    ∀ x ∈ l, x = 0 ∨ x = 1 := by
  unfold previousOnValues at h
  peel h with ps, _h1
  exact prevOnOfList_bin h

theorem mem_lastK {α} {k : Nat} {xs : List α} {x : α} (h : x ∈ lastK k xs) : x ∈ xs := by
  unfold lastK at h
  split at h
  · exact h
  · exact List.mem_of_mem_drop h

theorem sum_zipWith_nonneg : ∀ (a b : List ℚ), (∀ x ∈ a, 0 ≤ x) → (∀ x ∈ b, 0 ≤ x) →
    0 ≤ (List.zipWith (· * ·) a b).sum
  | [], _, _, _ => by simp
  | _ :: _, [], _, _ => by simp
  | x :: a, y :: b, ha, hb => by
    have := sum_zipWith_nonneg a b (fun z hz => ha z (by simp [hz])) (fun z hz => hb z (by simp [hz]))
    have := mul_nonneg (ha x (by simp)) (hb y (by simp))
    simp only [List.zipWith_cons_cons, List.sum_cons]
    linarith

/-- Widths before the horizon are not negative. -/
def Num.Nonneg : Num → Prop
  | .s x => 0 ≤ x
  | .v xs => ∀ x ∈ xs, 0 ≤ x

theorem consec_nonneg {eps : ℚ} {bs : List ℚ} {dt : Num} {h : ℚ} (hb : ∀ x ∈ bs, 0 ≤ x) (hd : dt.Nonneg)
    (hc : getConsecutiveDuration eps (.v bs) dt = .ok h) : 0 ≤ h := by
  cases dt with
  | s d =>
    simp only [getConsecutiveDuration, Except.ok.injEq] at hc
    subst hc
    apply List.sum_nonneg
    intro x hx
    obtain ⟨y, hy, rfl⟩ := List.mem_map.1 hx
    exact mul_nonneg (hb y (mem_lastK hy)) hd
  | v ds =>
    simp only [getConsecutiveDuration] at hc
    split at hc
    · simp at hc
    · simp only [Except.ok.injEq] at hc
      subst hc
      exact sum_zipWith_nonneg _ _ (fun x hx => hb x (mem_lastK hx)) (fun x hx => hd x (mem_lastK hx))

/-- The run lengths of a schedule. -/
def runH (b w : Nat → ℚ) (before : ℚ) : Nat → ℚ
  | 0 => if b 0 = 0 then 0 else before + w 0
  | t + 1 => if b (t + 1) = 0 then 0 else runH b w before t + w (t + 1)

theorem runH_run {n : Nat} {b w : Nat → ℚ} {before : ℚ} (hb : ∀ t < n, b t = 0 ∨ b t = 1) :
    ∀ t < n, RunUpTo b w before t (runH b w before t)
  | 0, ht => by
    unfold runH
    rcases hb 0 ht with h | h
    · rw [if_pos h]; exact .idle h
    · rw [if_neg (by rw [h]; norm_num)]; exact run_zero_on h
  | t + 1, ht => by
    unfold runH
    rcases hb (t + 1) ht with h | h
    · rw [if_pos h]; exact .idle h
    · rw [if_neg (by rw [h]; norm_num)]; exact run_succ_on h (runH_run hb t (by omega))

theorem run_congr {n : Nat} {b b' w : Nat → ℚ} {before : ℚ} (h : ∀ t < n, b t = b' t) {t : Nat} {x : ℚ} (ht : t < n)
    (hx : RunUpTo b w before t x) : RunUpTo b' w before t x := by
  cases hx with
  | idle h0 => exact .idle (by rw [← h t ht]; exact h0)
  | started hs h0 hon =>
    exact .started hs (by rw [← h _ (by omega)]; exact h0) fun k h1 h2 => by rw [← h k (by omega)]; exact hon k h1 h2
  | carried hon => exact .carried fun k hk => by rw [← h k (by omega)]; exact hon k hk

/-- Rows of the duration from the specification. -/
theorem dur_of_respect {n : Nat} {w b : Nat → ℚ} {prev mega : ℚ} {minD maxD : Option Num} (hn : 0 < n)
    (hw : ∀ t < n, 0 ≤ w t) (hp : 0 ≤ prev) (hmega : mega = ∑ k ∈ Finset.range n, w k + prev)
    (hb : ∀ t < n, b t = 0 ∨ b t = 1)
    (hr : RunsRespect n b w prev (minD.map Num.at) (maxD.map Num.at))
    (hlo : ∀ m, minD = some m → ∀ t < n, 0 ≤ m.at t) (hhi : ∀ m, maxD = some m → ∀ t < n, 0 ≤ m.at t) :
    DurRows n w b (runH b w prev) prev mega minD maxD := by
  have hrun := fun t (ht : t < n) => runH_run (w := w) (before := prev) hb t ht
  refine dur_complete hn hw hp hmega hb hrun ?_ ?_ ?_ ?_
  · intro m hm t ht
    rcases hb t ht with h | h
    · rw [run_unique (hrun t ht) (.idle h)]; exact hhi m hm t ht
    · exact hr.notTooLong m.at (by rw [hm]; rfl) t _ ht h (hrun t ht)
  · intro m hm t ht h1 h2
    exact hr.longEnough m.at (by rw [hm]; rfl) t _ ht h1 h2 (hrun t (by omega))
  · exact fun m hm t ht => hlo m hm t (by omega)
  · exact fun m hm h1 h2 => hr.continued m.at (by rw [hm]; rfl) h1 h2

theorem onRel_congr {n : Nat} {eps : ℚ} {σ σ' : Assignment} {on : Var} {ds : List (Var × Num × Num)}
    (hon : ∀ t < n, σ on.label t = σ' on.label t) (hd : ∀ d ∈ ds, ∀ t < n, σ d.1.label t = σ' d.1.label t)
    (h : OnRel n eps σ on ds) : OnRel n eps σ' on ds := by
  have hsum : ∀ t < n, (ds.map fun d => σ d.1.label t) = ds.map fun d => σ' d.1.label t := by
    intro t ht
    apply List.map_congr_left
    intro d hdm; exact hd d hdm t ht
  match ds, hd, h, hsum with
  | [], _, h, hsum => intro t ht; have := h t ht; rw [hon t ht] at this; exact this
  | [(x, lb, ub)], hd, h, _ =>
    intro t ht
    have := h t ht
    rw [hon t ht, hd (x, lb, ub) (by simp) t ht] at this
    exact this
  | a :: b :: ds, hd, h, hsum =>
    intro t ht
    have := h t ht
    rw [hon t ht, hsum t ht] at this
    exact this

/-- The parts of an on/off model that exist and their labels. -/
theorem onOff_parts {sys : Sys} {el : String} {q : OnOffParams} {ds : List (Var × Num × Num)} {o : OnOffOut}
    (h : onOffModel sys el q ds = .ok o) :
    o.on.label = ooP el ++ "_" ++ "on" ∧ o.totalOnHours.label = ooP el ++ "_" ++ "totalOnHours" ∧
    (o.off.isSome = q.useOff) ∧ (∀ x, o.off = some x → x.label = ooP el ++ "_" ++ "off" ∧ x.length = sys.n) ∧
    (o.consecOn.isSome = q.useConsecOn) ∧
    (∀ x, o.consecOn = some x → x.label = ooP el ++ "_" ++ "consecutiveOnHours" ∧ x.length = sys.n) ∧
    (o.consecOff.isSome = q.useConsecOff) ∧
    (∀ x, o.consecOff = some x → x.label = ooP el ++ "_" ++ "consecutiveOffHours" ∧ x.length = sys.n) ∧
    ∃ a b c, o.switchOn = some a ∧ o.switchOff = some b ∧ o.nrSwitchOn = some c ∧
      a.label = ooP el ++ "_" ++ "switchOn" ∧ b.label = ooP el ++ "_" ++ "switchOff" ∧
      c.label = ooP el ++ "_" ++ "nrSwitchOn" ∧
      o.vars = [o.on, o.totalOnHours] ++ o.off.toList ++ o.consecOn.toList ++ o.consecOff.toList ++ [a, b, c] := by
  obtain ⟨prevOn, cOn, off, dOn, dOff, swOn, swOff, nr, cSw, hprev, hon, htot, hcOn, hoff, hdOn, hdOff, hswOn, hswOff, hnr, hcSw,
    eoff, edOn, edOff, esOn, esOff, enr, hvars, hcons, _⟩ := onOff_inv h
  have hdur : ∀ {label : String} {bin : Var} {lo hi : Option Num} {x : Var} {cs : List ConReq},
      getDuration sys (ooP el) label bin lo hi = .ok (x, cs) → x.label = ooP el ++ "_" ++ label ∧ x.length = sys.n := by
    intro label bin lo hi x cs hx
    unfold getDuration at hx
    peel hx with prev, _h1
    peel hx with dur, h2
    peel hx with dt0, _h3
    peel hx with c3, _h4
    simp only [except_pure, Except.ok.injEq, Prod.mk.injEq] at hx
    obtain ⟨rfl, _⟩ := hx
    have := (mkVar_ok h2).1
    rw [this]; simp
  refine ⟨by rw [hon], by rw [htot], ?_, ?_, ?_, ?_, ?_, ?_, swOn, swOff, nr, esOn, esOff, enr, by rw [hswOn], by rw [hswOff],
    by rw [hnr], ?_⟩
  · rw [eoff]
    unfold offOpt at hoff
    split at hoff
    · rename_i hu
      obtain ⟨a, _, rfl⟩ := map_ok.1 hoff; simp [hu]
    · rename_i hu
      simp at hoff; subst hoff; simpa using hu
  · intro x hx
    rw [eoff] at hx
    unfold offOpt at hoff
    split at hoff
    · obtain ⟨⟨y, cs⟩, hy, rfl⟩ := map_ok.1 hoff
      unfold offPart at hy
      peel hy with z, hz
      simp only [except_pure, Except.ok.injEq, Prod.mk.injEq] at hy
      obtain ⟨rfl, _⟩ := hy
      simp at hx; subst hx
      rw [(mkVar_ok hz).1]; simp
    · simp at hoff; subst hoff; simp at hx
  · rw [edOn]
    unfold durationOnOpt at hdOn
    split at hdOn
    · rename_i hu
      obtain ⟨a, _, rfl⟩ := map_ok.1 hdOn; simp [hu]
    · rename_i hu
      simp at hdOn; subst hdOn; simpa using hu
  · intro x hx
    rw [edOn] at hx
    unfold durationOnOpt at hdOn
    split at hdOn
    · obtain ⟨⟨y, cs⟩, hy, rfl⟩ := map_ok.1 hdOn
      simp at hx; subst hx
      exact hdur hy
    · simp at hdOn; subst hdOn; simp at hx
  · rw [edOff]
    unfold durationOffOpt at hdOff
    split at hdOff
    · rename_i hu
      split at hdOff
      · obtain ⟨a, _, rfl⟩ := map_ok.1 hdOff; simp [hu]
      · simp at hdOff
    · rename_i hu
      simp at hdOff; subst hdOff; simpa using hu
  · intro x hx
    rw [edOff] at hx
    unfold durationOffOpt at hdOff
    split at hdOff
    · split at hdOff
      · obtain ⟨⟨y, cs⟩, hy, rfl⟩ := map_ok.1 hdOff
        simp at hx; subst hx
        exact hdur hy
      · simp at hdOff
    · simp at hdOff; subst hdOff; simp at hx
  · rw [hvars, eoff, edOn, edOff]

/-- All limits that on/off parameters put on a schedule `b`. -/
structure ScheduleOk (sys : Sys) (q : OnOffParams) (prevOn : List ℚ) (last : ℚ) (b : Nat → ℚ) : Prop where
  bin : ∀ t < sys.n, b t = 0 ∨ b t = 1
  totalMin : ∀ m, q.onHoursTotalMin = some m → m ≤ ∑ k ∈ onSteps b sys.n, sys.width k
  totalMax : ∀ m, q.onHoursTotalMax = some m → ∑ k ∈ onSteps b sys.n, sys.width k ≤ m
  starts : ∀ m, q.switchOnTotalMax = some m → ((startSteps b last sys.n).card : ℚ) ≤ m
  runsOn : ∀ before, getConsecutiveDuration sys.cfg.eps (.v prevOn) sys.prevDt = .ok before →
    RunsRespect sys.n b sys.width before (q.consecOnMin.map Num.at) (q.consecOnMax.map Num.at)
  runsOff : ∀ before, getConsecutiveDuration sys.cfg.eps (.v (prevOn.map (1 - ·))) sys.prevDt = .ok before →
    RunsRespect sys.n (fun t => 1 - b t) sys.width before (q.consecOffMin.map Num.at) (q.consecOffMax.map Num.at)

/-- Duration limits are not negative. -/
def OnOffParams.NonnegLimits (n : Nat) (q : OnOffParams) : Prop :=
  ∀ m, (q.consecOnMin = some m ∨ q.consecOnMax = some m ∨ q.consecOffMin = some m ∨ q.consecOffMax = some m) →
    ∀ t < n, 0 ≤ m.at t

theorem sum_onSteps {n : Nat} {b w : Nat → ℚ} (hb : ∀ t < n, b t = 0 ∨ b t = 1) :
    ∑ k ∈ Finset.range n, w k * b k = ∑ k ∈ onSteps b n, w k := by
  unfold onSteps
  rw [Finset.sum_filter]
  refine Finset.sum_congr rfl fun k hk => ?_
  rcases hb k (Finset.mem_range.1 hk) with h | h <;> simp [h]

/-- The names of the variables of an on/off model. -/
def ooNames : List String :=
  ["on", "totalOnHours", "off", "consecutiveOnHours", "consecutiveOffHours", "switchOn", "switchOff", "nrSwitchOn"]

/-- The labels of the variables of the on/off model of an element. -/
def ooLabels (el : String) : List String := ooNames.map fun s => ooP el ++ "_" ++ s

/-- The values that belong to a schedule. -/
def ooAssign (sys : Sys) (el : String) (last hOn hOff : ℚ) (b : Nat → ℚ) (σ : Assignment) : Assignment := fun l t =>
  if l = ooP el ++ "_" ++ "on" then b t
  else if l = ooP el ++ "_" ++ "totalOnHours" then ∑ k ∈ Finset.range sys.n, sys.width k * b k
  else if l = ooP el ++ "_" ++ "off" then 1 - b t
  else if l = ooP el ++ "_" ++ "consecutiveOnHours" then runH b sys.width hOn t
  else if l = ooP el ++ "_" ++ "consecutiveOffHours" then runH (fun k => 1 - b k) sys.width hOff t
  else if l = ooP el ++ "_" ++ "switchOn" then (if stateBefore b last t = 0 ∧ b t = 1 then 1 else 0)
  else if l = ooP el ++ "_" ++ "switchOff" then (if stateBefore b last t = 1 ∧ b t = 0 then 1 else 0)
  else if l = ooP el ++ "_" ++ "nrSwitchOn" then ((startSteps b last sys.n).card : ℚ)
  else σ l t

theorem ooAssign_other {sys : Sys} {el : String} {last hOn hOff : ℚ} {b : Nat → ℚ} {σ : Assignment} {l : String}
    (h : l ∉ ooLabels el) : ooAssign sys el last hOn hOff b σ l = σ l := by
  simp only [ooLabels, ooNames, List.map_cons, List.map_nil, List.mem_cons, List.not_mem_nil, or_false, not_or] at h
  obtain ⟨h1, h2, h3, h4, h5, h6, h7, h8⟩ := h
  funext t
  simp [ooAssign, h1, h2, h3, h4, h5, h6, h7, h8]

theorem switch_rows {n : Nat} {b : Nat → ℚ} {last : ℚ} (hb : ∀ t < n, b t = 0 ∨ b t = 1) (hl : last = 0 ∨ last = 1)
    (hn : 0 < n) : SwitchRows n b (fun t => if stateBefore b last t = 0 ∧ b t = 1 then 1 else 0)
      (fun t => if stateBefore b last t = 1 ∧ b t = 0 then 1 else 0) ((startSteps b last n).card : ℚ) last := by
  have hsb : ∀ t < n, stateBefore b last t = 0 ∨ stateBefore b last t = 1 := by
    intro t ht
    cases t with
    | zero => exact hl
    | succ t => exact hb t (by omega)
  have hdiff : ∀ t < n, (if stateBefore b last t = 0 ∧ b t = 1 then (1 : ℚ) else 0) -
      (if stateBefore b last t = 1 ∧ b t = 0 then 1 else 0) = b t - stateBefore b last t := by
    intro t ht
    rcases hsb t ht with h | h <;> rcases hb t ht with h' | h' <;> simp [h, h']
  refine ⟨?_, ?_, ?_, ?_, ?_, ?_⟩
  · intro t _; split <;> simp
  · intro t _; split <;> simp
  · intro t ht; exact hdiff (t + 1) ht
  · exact hdiff 0 hn
  · intro t ht
    rcases hsb t ht with h | h <;> rcases hb t ht with h' | h' <;> simp [h, h'] <;> norm_num
  · unfold startSteps
    rw [Finset.card_filter]
    rw [Nat.cast_sum]
    apply Finset.sum_congr rfl
    intro k _
    push_cast
    exact if_congr Iff.rfl rfl rfl

/-- The modelled durations before the horizon could be computed. -/
theorem onOff_prevDur {sys : Sys} {el : String} {q : OnOffParams} {ds : List (Var × Num × Num)} {o : OnOffOut}
    (h : onOffModel sys el q ds = .ok o) (h2 : 2 ≤ sys.n) {prevOn : List ℚ}
    (hprev : previousOnValues sys.cfg.eps (ds.map (·.1)) = .ok prevOn) :
    (∀ x, o.consecOn = some x → ∃ prev, getConsecutiveDuration sys.cfg.eps (.v prevOn) sys.prevDt = .ok prev) ∧
    (∀ x, o.consecOff = some x → ∃ prev,
      getConsecutiveDuration sys.cfg.eps (.v (prevOn.map (1 - ·))) sys.prevDt = .ok prev) := by
  obtain ⟨prevOn', cOn, off, dOn, dOff, swOn, swOff, nr, cSw, hprev', hon, htot, hcOn, hoff, hdOn, hdOff, hswOn, hswOff, hnr,
    hcSw, eoff, edOn, edOff, esOn, esOff, enr, hvars, hcons, _⟩ := onOff_inv h
  rw [hprev] at hprev'; cases hprev'
  have hpd : ∀ {label : String} {bin : Var} {lo hi : Option Num} {x : Var} {cs : List ConReq} {l : List ℚ},
      bin.length = sys.n → bin.previous = some (.v l) →
      getDuration sys (ooP el) label bin lo hi = .ok (x, cs) →
      ∃ prev, getConsecutiveDuration sys.cfg.eps (.v l) sys.prevDt = .ok prev := by
    intro label bin lo hi x cs l hl hp hx
    unfold getDuration at hx
    peel hx with prev, h1
    refine ⟨prev, ?_⟩
    unfold prevDuration at h1
    peel h1 with y, hy
    obtain ⟨_, hy⟩ := prevValues_ok hy
    rw [hp] at hy; subst hy
    exact h1
  refine ⟨fun x hx => ?_, fun x hx => ?_⟩
  · rw [edOn] at hx
    unfold durationOnOpt at hdOn
    split at hdOn
    · obtain ⟨⟨y, cs⟩, hy, rfl⟩ := map_ok.1 hdOn
      exact hpd (by rw [hon]) (by rw [hon]; simp; omega) hy
    · simp at hdOn; subst hdOn; simp at hx
  · rw [edOff] at hx
    unfold durationOffOpt at hdOff
    split at hdOff
    · split at hdOff
      · rename_i z hz
        obtain ⟨⟨y, cs⟩, hy, rfl⟩ := map_ok.1 hdOff
        unfold offOpt at hoff
        split at hoff
        · obtain ⟨⟨y', cs'⟩, hy', rfl⟩ := map_ok.1 hoff
          unfold offPart at hy'
          peel hy' with w, hw
          simp only [except_pure, Except.ok.injEq, Prod.mk.injEq] at hy'
          obtain ⟨rfl, _⟩ := hy'
          simp only [Option.map_some, Option.some.injEq] at hz
          subst hz
          have hm := (mkVar_ok hw).1
          exact hpd (by rw [hm]) (by rw [hm]; simp; omega) hy
        · simp at hoff; subst hoff; simp at hz
      · simp at hdOff
    · simp at hdOff; subst hdOff; simp at hx

/-- Every schedule that respects the limits, together with values of the defining variables that fit to it, is a solution
of the on/off model. -/
theorem onOff_complete {sys : Sys} (hv : sys.Valid) {el : String} {q : OnOffParams} {ds : List (Var × Num × Num)}
    {o : OnOffOut} (hq : q.Fits sys.n) (hds : ∀ d ∈ ds, d.1.length = sys.n ∧ d.2.1.Fits sys.n ∧ d.2.2.Fits sys.n)
    (h : onOffModel sys el q ds = .ok o) (hpd : sys.prevDt.Nonneg) (hnn : q.NonnegLimits sys.n)
    {prevOn : List ℚ} (hprev : previousOnValues sys.cfg.eps (ds.map (·.1)) = .ok prevOn)
    {last : ℚ} (hlast : prevOn.getLast? = some last) {b : Nat → ℚ} (hs : ScheduleOk sys q prevOn last b) {σ : Assignment}
    (hdis : ∀ d ∈ ds, d.1.label ∉ ooLabels el) (hrel : OnRel sys.n sys.cfg.eps (σ.set o.on.label b) o.on ds) :
    ∃ τ : Assignment, (∀ l ∉ ooLabels el, τ l = σ l) ∧ τ o.on.label = b ∧ o.tree.Solves τ := by
  obtain ⟨h2, prevOn', hprev', hiff⟩ := onOff_iff hv hq hds h
  rw [hprev] at hprev'; cases hprev'
  obtain ⟨lon, ltot, uoff, loff, ucon, lcon, ucoff, lcoff, a, b', c, ea, eb, ec, la, lb, lc, hvars⟩ := onOff_parts h
  have hbin := previousOn_bin hprev
  have hlb : last = 0 ∨ last = 1 := hbin last (List.mem_of_getLast? hlast)
  have hOn : ∃ hOn : ℚ, ∀ p, getConsecutiveDuration sys.cfg.eps (.v prevOn) sys.prevDt = .ok p → p = hOn := by
    cases hc : getConsecutiveDuration sys.cfg.eps (.v prevOn) sys.prevDt with
    | error e => exact ⟨0, by simp⟩
    | ok p => exact ⟨p, fun p' hp' => by cases hp'; rfl⟩
  have hOff : ∃ hOff : ℚ,
      ∀ p, getConsecutiveDuration sys.cfg.eps (.v (prevOn.map (1 - ·))) sys.prevDt = .ok p → p = hOff := by
    cases hc : getConsecutiveDuration sys.cfg.eps (.v (prevOn.map (1 - ·))) sys.prevDt with
    | error e => exact ⟨0, by simp⟩
    | ok p => exact ⟨p, fun p' hp' => by cases hp'; rfl⟩
  obtain ⟨hOn, hOnE⟩ := hOn
  obtain ⟨hOff, hOffE⟩ := hOff
  obtain ⟨dOn, dOff⟩ := onOff_prevDur h h2 hprev
  have hw : ∀ t < sys.n, 0 ≤ sys.width t := fun t ht => (hv.width_pos ht).le
  have hmega : ∀ prev, sys.total + prev = ∑ k ∈ Finset.range sys.n, sys.width k + prev := by
    intro prev; rw [hv.total_eq]
  let τ := ooAssign sys el last hOn hOff b σ
  have τon : τ o.on.label = b := by funext t; simp [τ, ooAssign, lon]
  have τtot : τ o.totalOnHours.label 0 = ∑ k ∈ onSteps b sys.n, sys.width k := by
    rw [← sum_onSteps hs.bin]
    simp [τ, ooAssign, ltot, String.append_right_inj]
  have hoffb : ∀ t < sys.n, (1 - b t = 0 ∨ 1 - b t = 1) := by
    intro t ht; rcases hs.bin t ht with h | h <;> simp [h]
  have τoff : ∀ x, o.off = some x → τ x.label = fun t => 1 - b t := by
    intro x hx; funext t; simp [τ, ooAssign, (loff x hx).1, String.append_right_inj]
  refine ⟨τ, fun l hl => ooAssign_other hl, τon, (hiff τ).2 ?_⟩
  refine ⟨?_, ?_, ?_, ?_, ?_, ?_, ?_, ?_, ?_, ?_⟩
  · rw [τon]; exact hs.bin
  · refine onRel_congr ?_ ?_ hrel
    · intro t _; rw [τon, set_same]
    · intro d hd t _
      have hne : d.1.label ≠ o.on.label := by
        intro he; apply hdis d hd; rw [he, lon]; simp [ooLabels, ooNames]
      rw [set_other _ _ _ hne]; exact (congrFun (ooAssign_other (hdis d hd)) t).symm
  · intro m hm; rw [τtot]; exact hs.totalMin m hm
  · intro m hm; rw [τtot]; exact hs.totalMax m hm
  · rw [τtot, τon, sum_onSteps hs.bin]
  · intro x hx t ht
    rw [τoff x hx, τon]
    exact ⟨hoffb t ht, by ring⟩
  · intro x hx
    obtain ⟨prev, hp⟩ := dOn x hx
    refine ⟨prev, hp, ?_⟩
    have hpn : 0 ≤ prev := consec_nonneg (fun x hx => by rcases hbin x hx with h | h <;> rw [h] <;> norm_num) hpd hp
    have e : τ x.label = runH b sys.width prev := by
      funext t; rw [hOnE prev hp]; simp [τ, ooAssign, (lcon x hx).1, String.append_right_inj]
    rw [τon, e]
    exact dur_of_respect (by omega) hw hpn (hmega prev) hs.bin (hs.runsOn prev hp)
      (fun m hm => hnn m (Or.inl hm)) (fun m hm => hnn m (Or.inr (Or.inl hm)))
  · intro x hx
    obtain ⟨prev, hp⟩ := dOff x hx
    have hso : o.off.isSome = true := by
      rw [uoff]; unfold OnOffParams.useOff; rw [← ucoff, hx]; rfl
    obtain ⟨y, hy⟩ := Option.isSome_iff_exists.1 hso
    refine ⟨y, prev, hy, hp, ?_⟩
    have hpn : 0 ≤ prev := by
      refine consec_nonneg (fun x hx => ?_) hpd hp
      obtain ⟨y, hy, rfl⟩ := List.mem_map.1 hx
      rcases hbin y hy with h | h <;> rw [h] <;> norm_num
    have e : τ x.label = runH (fun k => 1 - b k) sys.width prev := by
      funext t; rw [hOffE prev hp]; simp [τ, ooAssign, (lcoff x hx).1, String.append_right_inj]
    rw [τoff y hy, e]
    exact dur_of_respect (by omega) hw hpn (hmega prev) hoffb (hs.runsOff prev hp)
      (fun m hm => hnn m (Or.inr (Or.inr (Or.inl hm)))) (fun m hm => hnn m (Or.inr (Or.inr (Or.inr hm))))
  · intro a' b'' c' ha hb hc
    rw [ea] at ha; rw [eb] at hb; rw [ec] at hc
    cases ha; cases hb; cases hc
    refine ⟨last, hlast, ?_⟩
    have e1 : τ a.label = fun t => if stateBefore b last t = 0 ∧ b t = 1 then 1 else 0 := by
      funext t; simp [τ, ooAssign, la, String.append_right_inj]
    have e2 : τ b'.label = fun t => if stateBefore b last t = 1 ∧ b t = 0 then 1 else 0 := by
      funext t; simp [τ, ooAssign, lb, String.append_right_inj]
    have e3 : τ c.label 0 = ((startSteps b last sys.n).card : ℚ) := by
      simp [τ, ooAssign, lc, String.append_right_inj]
    rw [τon, e1, e2, e3]
    exact switch_rows hs.bin hlb (by omega)
  · intro c' m hc hm
    rw [ec] at hc; cases hc
    have e3 : τ c.label 0 = ((startSteps b last sys.n).card : ℚ) := by
      simp [τ, ooAssign, lc, String.append_right_inj]
    rw [e3]; exact hs.starts m hm

end Flix
