import Verif.Lemmas.Sem
import Verif.Model.OnOff

/-! # Inversion of the on/off model -/

namespace Flix

theorem ok_bind {ε α β} (a : α) (f : α → Except ε β) : ((Except.ok a : Except ε α) >>= f) = f a := rfl

theorem pure_bind' {ε α β} (a : α) (f : α → Except ε β) : ((pure a : Except ε α) >>= f) = f a := rfl

theorem map_ok {ε α β} {f : α → β} {x : Except ε α} {b : β} : f <$> x = .ok b ↔ ∃ a, x = .ok a ∧ f a = b := by
  cases x <;> simp [Functor.map, Except.map]

/-- Take the first step of a computation that ends well. -/
macro "peel " h:ident " with " a:rcasesPat ", " ha:rcasesPat : tactic =>
  `(tactic| (rw [bind_ok] at $h:ident; obtain ⟨$a, $ha, $h:ident⟩ := $h:ident))

theorem prevValues_ok {x : Var} {b} (h : x.previousValues = .ok b) : 1 < x.length ∧ x.previous = b := by
  unfold Var.previousValues at h
  split at h
  · exact ⟨by assumption, by simpa using h⟩
  · simp at h

/-- The label of the on/off model of an element. -/
def ooP (el : String) : String := el ++ "__OnOff"

/-- The bounds of the defining variables with the lower bounds raised to epsilon. -/
def raised (eps : ℚ) (defining : List (Var × Num × Num)) : List (Var × Num × Num) :=
  defining.map fun d => (d.1, d.2.1.map (max eps), d.2.2)

theorem onOff_inv {sys el params defining o} (h : onOffModel sys el params defining = .ok o) :
    ∃ (prevOn : List ℚ) (cOn : List ConReq) (off dOn dOff : Option (Var × List ConReq)) (swOn swOff nr : Var)
      (cSw : List ConReq),
      previousOnValues sys.cfg.eps (defining.map (·.1)) = .ok prevOn ∧
      o.on = { label := ooP el ++ "_" ++ "on", length := sys.n, isBinary := true,
               previous := if sys.n > 1 then some (.v prevOn) else none } ∧
      o.totalOnHours = { label := ooP el ++ "_" ++ "totalOnHours", length := 1,
                         lb := params.onHoursTotalMin.map .s, ub := params.onHoursTotalMax.map .s } ∧
      onConstraints sys (ooP el) o.on (raised sys.cfg.eps defining) = .ok cOn ∧
      offOpt sys (ooP el) params o.on prevOn = .ok off ∧
      durationOnOpt sys (ooP el) params o.on = .ok dOn ∧
      durationOffOpt sys (ooP el) params (off.map (·.1)) = .ok dOff ∧
      swOn = { label := ooP el ++ "_" ++ "switchOn", length := sys.n, isBinary := true } ∧
      swOff = { label := ooP el ++ "_" ++ "switchOff", length := sys.n, isBinary := true } ∧
      nr = { label := ooP el ++ "_" ++ "nrSwitchOn", length := 1, ub := params.switchOnTotalMax.map .s } ∧
      switchConstraints sys (ooP el) o.on swOn swOff nr = .ok cSw ∧
      o.off = off.map (·.1) ∧ o.consecOn = dOn.map (·.1) ∧ o.consecOff = dOff.map (·.1) ∧
      o.switchOn = some swOn ∧ o.switchOff = some swOff ∧ o.nrSwitchOn = some nr ∧
      o.vars = [o.on, o.totalOnHours] ++ (off.map (·.1)).toList ++ (dOn.map (·.1)).toList ++
        (dOff.map (·.1)).toList ++ [swOn, swOff, nr] ∧
      o.cons = [mkEq (ooP el) "totalOnHours" [sSum o.on (.v sys.dt), sAll o.totalOnHours (.s (-1))]] ++ cOn ++
        (off.map (·.2)).getD [] ++ (dOn.map (·.2)).getD [] ++ (dOff.map (·.2)).getD [] ++ cSw ∧
      ∃ sh1 sh2,
        sharesTo .operation el "switch_on_effects" params.effectsPerSwitchOn (.s 1) (some swOn) = .ok sh1 ∧
        sharesTo .operation el "running_hour_effects" params.effectsPerRunningHour (.v sys.dt) (some o.on) = .ok sh2 ∧
        o.shares = sh1 ++ sh2 := by
  unfold onOffModel at h
  have husw : params.useSwitchOn = true := by simp [OnOffParams.useSwitchOn]
  simp only [mkVar_free, ok_bind] at h
  obtain ⟨prevOn, h1, h⟩ := bind_ok.1 h
  obtain ⟨cOn, h2, h⟩ := bind_ok.1 h
  obtain ⟨off, h3, h⟩ := bind_ok.1 h
  obtain ⟨dOn, h4, h⟩ := bind_ok.1 h
  obtain ⟨dOff, h5, h⟩ := bind_ok.1 h
  obtain ⟨sw, h6, h⟩ := bind_ok.1 h
  obtain ⟨sh1, h7, h⟩ := bind_ok.1 h
  obtain ⟨sh2, h8, h⟩ := bind_ok.1 h
  simp only [except_pure, Except.ok.injEq] at h
  simp only [switchOpt, husw, if_true] at h6
  obtain ⟨⟨swOn, swOff, nr, cSw⟩, h9, h10⟩ := map_ok.1 h6
  unfold switchPart at h9
  simp only [mkVar_free, ok_bind] at h9
  obtain ⟨cSw', h11, h12⟩ := bind_ok.1 h9
  simp only [except_pure, Except.ok.injEq, Prod.mk.injEq] at h12
  obtain ⟨e1, e2, e3, e4⟩ := h12
  subst h h10 e4
  rw [e1, e2, e3] at h11
  refine ⟨prevOn, cOn, off, dOn, dOff, swOn, swOff, nr, cSw', ?_, rfl, by simp [ooP], h2, h3, h4, h5, ?_, ?_, ?_, h11, rfl, rfl,
    rfl, rfl, rfl, rfl, rfl, rfl, sh1, sh2, h7, h8, rfl⟩
  · simpa [List.map_map, Function.comp_def] using h1
  · rw [← e1]; simp [ooP]
  · rw [← e2]; simp [ooP]
  · rw [← e3]; simp [ooP]

end Flix
