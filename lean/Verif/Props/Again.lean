import Verif.Model.Again
import Verif.Lemmas.Window
import Verif.Props.Closed

/-!
# C89: modelling again gives the same model
-/

namespace Flix

variable {sys : Sys}

theorem fillOnOff_keeps (c : CompData) (f : FlowData) : (fillOnOff c f).size = f.size := by
  unfold fillOnOff
  split <;> rfl

theorem fillOnOff_same {c d : CompData} (h1 : c.onOff.isSome = d.onOff.isSome) (h2 : c.prevent = d.prevent) (f : FlowData) : fillOnOff c f = fillOnOff d f := by
  unfold fillOnOff
  rw [h1, h2]

theorem fillOnOff_twice (c : CompData) (f : FlowData) : fillOnOff c (fillOnOff c f) = fillOnOff c f := by
  unfold fillOnOff
  by_cases h : ((c.onOff.isSome || decide (f.label ∈ c.prevent)) && f.onOff.isNone) = true
  · rw [if_pos h]
    simp
  · rw [if_neg h, if_neg h]

theorem compFlow_modelled (sys : Sys) {c d : CompData} (h0 : d.label = c.label) (h1 : d.onOff.isSome = c.onOff.isSome) (h2 : d.prevent = c.prevent) (f : FlowData) :
    compFlow sys d (fillOnOff c f) = compFlow sys c f := by
  unfold compFlow
  rw [fillOnOff_same h1 h2, fillOnOff_twice, h0]

theorem mapM_map' {α β γ} (g : α → β) (f : β → Except Err γ) (l : List α) : (l.map g).mapM f = l.mapM (fun a => f (g a)) := by
  induction l with
  | nil => rfl
  | cons a l ih => simp [List.mapM_cons, ih]

theorem comp_again (sys : Sys) (c : CompData) : compModel sys c.modelled = compModel sys c := by
  unfold compModel
  have e : ∀ fs : List FlowData, (fs.map (fillOnOff c)).mapM (compFlow sys c.modelled) = fs.mapM (compFlow sys c) := by
    intro fs
    rw [mapM_map']
    congr 1
    funext f
    exact compFlow_modelled sys rfl rfl rfl f
  simp only [CompData.modelled] at e ⊢
  rw [e, e]
  rfl

theorem storage_again (sys : Sys) (s : StorageData) :
    storageModel sys { s with charging := fillOnOff s.comp s.charging, discharging := fillOnOff s.comp s.discharging } = storageModel sys s := by
  have e : StorageData.comp { s with charging := fillOnOff s.comp s.charging, discharging := fillOnOff s.comp s.discharging } = s.comp.modelled := by
    unfold StorageData.comp CompData.modelled
    simp only [fillOnOff_label, List.map_cons, List.map_nil]
  unfold storageModel
  rw [e, comp_again]
  rfl

theorem converter_again (sys : Sys) (c : ConvData) : converterModel sys { c with comp := c.comp.modelled } = converterModel sys c := by
  unfold converterModel
  rw [comp_again]
  rfl

/-! ## Transmissions -/

theorem fill_forced (t : TransData) (f : FlowData) : t.fill f = fillForced (t.absLosses.any Num.anyNonzero) f := by
  unfold TransData.fill fillForced
  cases t.absLosses <;> simp

theorem fillForced_again (b : Bool) (c : CompData) {f : FlowData} {size : SizeArg} :
    fillForced b (fillOnOff c { fillForced b f with size := size }) = fillOnOff c { fillForced b f with size := size } := by
  cases b with
  | false => simp [fillForced]
  | true =>
    unfold fillForced fillOnOff
    cases h : f.onOff <;> simp [h]

theorem fillForced_again' (b : Bool) (c : CompData) (f : FlowData) : fillForced b (fillOnOff c (fillForced b f)) = fillOnOff c (fillForced b f) :=
  fillForced_again b c (f := f) (size := (fillForced b f).size)

theorem fillForced_label (b : Bool) (f : FlowData) : (fillForced b f).label = f.label := by
  unfold fillForced
  split <;> rfl

theorem fillForced_size (b : Bool) (f : FlowData) : (fillForced b f).size = f.size := by
  unfold fillForced
  split <;> rfl

/-- The size that is filled in. -/
theorem fillIn2_eq (cfg : Cfg) (t : TransData) (f : FlowData) : t.fillIn2 cfg f = { f with size := (t.fillIn2 cfg f).size } := by
  unfold TransData.fillIn2
  split <;> rfl

theorem fillIn2_again (cfg : Cfg) {t t' : TransData} (h : t'.in1.size = t.in1.size) {f g : FlowData} (hs : g.size = (t.fillIn2 cfg f).size) : t'.fillIn2 cfg g = g := by
  unfold TransData.fillIn2 at *
  rw [h]
  cases h1 : t.in1.size <;> cases h2 : f.size <;> simp_all

theorem trans_comp_fields (cfg : Cfg) (t : TransData) : (t.comp cfg).label = t.label ∧
    (t.comp cfg).inputs = fillForced (t.absLosses.any Num.anyNonzero) t.in1 :: (t.in2.map fun f => t.fillIn2 cfg (fillForced (t.absLosses.any Num.anyNonzero) f)).toList ∧
    (t.comp cfg).outputs = fillForced (t.absLosses.any Num.anyNonzero) t.out1 :: (t.out2.map (fillForced (t.absLosses.any Num.anyNonzero))).toList ∧ (t.comp cfg).onOff = t.onOff := by
  unfold TransData.comp
  simp only [fill_forced, funext (fill_forced t), and_self]

theorem trans_comp_again (cfg : Cfg) (t : TransData) : (t.modelled cfg (t.absLosses.any Num.anyNonzero)).comp cfg = (t.comp cfg).modelled := by
  have hs : (t.modelled cfg (t.absLosses.any Num.anyNonzero)).in1.size = t.in1.size := by
    simp [TransData.modelled, TransData.filled, fillOnOff_keeps, fillForced_size]
  obtain ⟨a1, a2, a3, a4⟩ := trans_comp_fields cfg t
  obtain ⟨b1, b2, b3, b4⟩ := trans_comp_fields cfg (t.modelled cfg (t.absLosses.any Num.anyNonzero))
  have hl : (t.modelled cfg (t.absLosses.any Num.anyNonzero)).absLosses = t.absLosses := rfl
  have hp : ((t.modelled cfg (t.absLosses.any Num.anyNonzero)).comp cfg).prevent = (t.comp cfg).prevent := by
    unfold TransData.comp TransData.modelled TransData.filled
    cases t.in2 <;> simp [fillOnOff_label, fillForced_label, fillIn2_label]
  rw [hl] at b2 b3
  generalize hb : t.absLosses.any Num.anyNonzero = b at *
  have i1 : (t.modelled cfg b).in1 = fillOnOff (t.comp cfg) (fillForced b t.in1) := rfl
  have i2 : (t.modelled cfg b).in2 = (t.in2.map fun f => t.fillIn2 cfg (fillForced b f)).map (fillOnOff (t.comp cfg)) := rfl
  have o1 : (t.modelled cfg b).out1 = fillOnOff (t.comp cfg) (fillForced b t.out1) := rfl
  have o2 : (t.modelled cfg b).out2 = (t.out2.map (fillForced b)).map (fillOnOff (t.comp cfg)) := rfl
  generalize hc : t.comp cfg = c at *
  generalize hd : (t.modelled cfg b).comp cfg = d at *
  have e2 : ∀ f, (t.modelled cfg b).fillIn2 cfg (fillForced b (fillOnOff c (t.fillIn2 cfg (fillForced b f)))) = fillOnOff c (t.fillIn2 cfg (fillForced b f)) := by
    intro f
    rw [show fillForced b (fillOnOff c (t.fillIn2 cfg (fillForced b f))) = fillOnOff c (t.fillIn2 cfg (fillForced b f)) by
      rw [fillIn2_eq]; exact fillForced_again b c]
    exact fillIn2_again cfg hs (fillOnOff_keeps _ _)
  have q1 : d.inputs = c.modelled.inputs := by
    rw [b2, i1, i2]
    simp only [CompData.modelled, a2, fillForced_again']
    cases t.in2 <;> simp [e2]
  have q2 : d.outputs = c.modelled.outputs := by
    rw [b3, o1, o2]
    simp only [CompData.modelled, a3, fillForced_again']
    cases t.out2 <;> simp [fillForced_again']
  have q3 : d.label = c.modelled.label := b1.trans a1.symm
  have q4 : d.onOff = c.modelled.onOff := b4.trans a4.symm
  have q5 : d.prevent = c.modelled.prevent := hp
  cases d
  cases c
  simp only [CompData.modelled] at *
  subst q1 q2 q3 q4 q5
  rfl

theorem trans_again (sys : Sys) (t : TransData) : transmissionModel sys (t.modelled sys.cfg (t.absLosses.any Num.anyNonzero)) = transmissionModel sys t := by
  have hs : (t.modelled sys.cfg (t.absLosses.any Num.anyNonzero)).in1.size = t.in1.size := by
    simp [TransData.modelled, TransData.filled, fillOnOff_keeps, fillForced_size]
  have e1 : ∀ name i o, transCon (t.modelled sys.cfg (t.absLosses.any Num.anyNonzero)) name i o = transCon t name i o := fun _ _ _ => rfl
  have e2 : ∀ i1 i2 o2, transSecond (t.modelled sys.cfg (t.absLosses.any Num.anyNonzero)) i1 i2 o2 = transSecond t i1 i2 o2 := by
    intro i1 i2 o2
    unfold transSecond
    rw [hs]
    rfl
  unfold transmissionModel
  rw [trans_comp_again, comp_again]
  simp only [e1, e2]

/-! ## Selections of steps -/

theorem fillOnOff_window (a len : Nat) (p : Option Num) {c d : CompData} (h1 : d.onOff.isSome = c.onOff.isSome) (h2 : d.prevent = c.prevent) (f : FlowData) :
    (fillOnOff c f).window a len p = fillOnOff d (f.window a len p) := by
  unfold fillOnOff
  rw [h1, h2, show (f.window a len p).label = f.label from rfl, show (f.window a len p).onOff.isNone = f.onOff.isNone by cases h : f.onOff <;> simp [FlowData.window, h]]
  split
  · rfl
  · rfl

theorem fillForced_window (a len : Nat) (p : Option Num) (b : Bool) (f : FlowData) : (fillForced b f).window a len p = fillForced b (f.window a len p) := by
  unfold fillForced
  rw [show (f.window a len p).onOff.isNone = f.onOff.isNone by cases h : f.onOff <;> simp [FlowData.window, h]]
  split <;> rfl

theorem fillIn2_window (a len : Nat) (st : SegStart) (p : Option Num) (cfg : Cfg) (t : TransData) (f : FlowData) :
    (t.fillIn2 cfg f).window a len p = (t.window a len st).fillIn2 cfg (f.window a len p) := by
  unfold TransData.fillIn2
  rw [show (t.window a len st).in1.size = t.in1.size from rfl, show (f.window a len p).size = f.size from rfl]
  cases t.in1.size <;> cases f.size <;> rfl

theorem comp_modelled_window (a len : Nat) (st : SegStart) (c : CompData) : c.modelled.window a len st = (c.window a len st).modelled := by
  have e : ∀ fs : List FlowData, (fs.map (fillOnOff c)).map (fun f => f.window a len (st.rate c.label f.label)) =
      (fs.map fun f => f.window a len (st.rate c.label f.label)).map (fillOnOff (c.window a len st)) := by
    intro fs
    rw [List.map_map, List.map_map]
    refine List.map_congr_left fun f _ => ?_
    simp only [Function.comp, fillOnOff_label]
    exact fillOnOff_window a len _ (c := c) (d := c.window a len st) (by simp [CompData.window]) rfl f
  unfold CompData.modelled CompData.window at *
  simp only at e ⊢
  rw [e, e]

theorem trans_modelled_window (a len : Nat) (st : SegStart) (cfg : Cfg) (b : Bool) (t : TransData) :
    (t.modelled cfg b).window a len st = (t.window a len st).modelled cfg b := by
  have hp : ((t.window a len st).comp cfg).prevent = (t.comp cfg).prevent := by
    unfold TransData.comp TransData.window
    cases t.in2 <;> rfl
  have ho : ((t.window a len st).comp cfg).onOff.isSome = (t.comp cfg).onOff.isSome := by
    simp [TransData.comp, TransData.window]
  have w := fun p f => fillOnOff_window a len p ho hp f
  have l1 : ∀ f, (fillOnOff (t.comp cfg) (fillForced b f)).label = f.label := fun f => by rw [fillOnOff_label, fillForced_label]
  have l2 : ∀ f, (fillOnOff (t.comp cfg) (t.fillIn2 cfg (fillForced b f))).label = f.label := fun f => by rw [fillOnOff_label, fillIn2_label, fillForced_label]
  have q1 : ((t.modelled cfg b).window a len st).in1 = ((t.window a len st).modelled cfg b).in1 := by
    simp only [TransData.modelled, TransData.filled, TransData.window, l1] at w ⊢
    rw [w, fillForced_window]
  have q2 : ((t.modelled cfg b).window a len st).out1 = ((t.window a len st).modelled cfg b).out1 := by
    simp only [TransData.modelled, TransData.filled, TransData.window, l1] at w ⊢
    rw [w, fillForced_window]
  have q3 : ((t.modelled cfg b).window a len st).out2 = ((t.window a len st).modelled cfg b).out2 := by
    simp only [TransData.modelled, TransData.filled, TransData.window] at w ⊢
    cases h3 : t.out2 with
    | none => rfl
    | some f =>
      simp only [h3, Option.map_some, l1] at w ⊢
      rw [w, fillForced_window]
  have q4 : ((t.modelled cfg b).window a len st).in2 = ((t.window a len st).modelled cfg b).in2 := by
    have g := fun p f => fillIn2_window a len st p cfg t f
    simp only [TransData.modelled, TransData.filled, TransData.window] at w g ⊢
    cases h2 : t.in2 with
    | none => rfl
    | some f =>
      simp only [h2, Option.map_some] at w g ⊢
      rw [l2, w, g, fillForced_window]
  have q5 : ∀ x y : TransData, x.label = y.label → x.in1 = y.in1 → x.out1 = y.out1 → x.in2 = y.in2 → x.out2 = y.out2 → x.relLosses = y.relLosses → x.absLosses = y.absLosses →
      x.onOff = y.onOff → x.preventBoth = y.preventBoth → x = y := by
    rintro ⟨⟩ ⟨⟩
    simp only
    rintro rfl rfl rfl rfl rfl rfl rfl rfl rfl
    rfl
  exact q5 _ _ rfl q1 q2 q4 q3 rfl rfl rfl rfl

/-- Whether the losses among the selected steps force on/off parameters. -/
def Comp.forced (a len : Nat) : Comp → Bool
  | .transmission t => t.forced a len
  | _ => false

/-- A component after modelling. -/
def Comp.modelledWith (cfg : Cfg) (b : Bool) : Comp → Comp
  | .transmission t => .transmission (t.modelled cfg b)
  | c => c.modelled cfg 0 0

theorem modelled_with (cfg : Cfg) (a len : Nat) (c : Comp) : c.modelled cfg a len = c.modelledWith cfg (c.forced a len) := by cases c <;> rfl

/-- A segment's model of a component that was modelled before. -/
theorem model_again_window (sys : Sys) (a len : Nat) (st : SegStart) (c : Comp) : ((c.modelledWith sys.cfg (c.forced a len)).window a len st).model sys = (c.window a len st).model sys := by
  cases c with
  | plain c =>
    simp only [Comp.modelledWith, Comp.modelled, Comp.window, Comp.model]
    rw [comp_modelled_window, comp_again]
  | converter c =>
    simp only [Comp.modelledWith, Comp.modelled, Comp.window, Comp.model, ConvData.window]
    rw [comp_modelled_window]
    exact converter_again sys (c.window a len st)
  | storage s =>
    simp only [Comp.modelledWith, Comp.modelled, Comp.window, Comp.model]
    rw [← storage_again sys (s.window a len st)]
    congr 2
    simp only [StorageData.window, fillOnOff_label]
    rw [fillOnOff_window a len _ (c := s.comp) (d := (s.window a len st).comp) rfl rfl, fillOnOff_window a len _ (c := s.comp) (d := (s.window a len st).comp) rfl rfl]
    rfl
  | transmission t =>
    simp only [Comp.modelledWith, Comp.forced, Comp.window, Comp.model]
    rw [trans_modelled_window]
    exact congrArg _ (trans_again sys (t.window a len st))

theorem transData_ext {x y : TransData} (h1 : x.label = y.label) (h2 : x.in1 = y.in1) (h3 : x.out1 = y.out1) (h4 : x.in2 = y.in2) (h5 : x.out2 = y.out2)
    (h6 : x.relLosses = y.relLosses) (h7 : x.absLosses = y.absLosses) (h8 : x.onOff = y.onOff) (h9 : x.preventBoth = y.preventBoth) : x = y := by
  cases x
  cases y
  simp only at *
  subst h1 h2 h3 h4 h5 h6 h7 h8 h9
  rfl

theorem trans_modelled_twice (cfg : Cfg) (b : Bool) (t : TransData) : (t.modelled cfg b).modelled cfg b = t.modelled cfg b := by
  have hs : (t.modelled cfg b).in1.size = t.in1.size := by
    simp [TransData.modelled, TransData.filled, fillOnOff_keeps, fillForced_size]
  have hp : ((t.modelled cfg b).comp cfg).prevent = (t.comp cfg).prevent := by
    unfold TransData.comp TransData.modelled TransData.filled
    cases t.in2 <;> simp [fillOnOff_label, fillForced_label, fillIn2_label]
  have ho : ((t.modelled cfg b).comp cfg).onOff.isSome = (t.comp cfg).onOff.isSome := rfl
  have w := fun f => fillOnOff_same ho hp f
  have g : ∀ f, fillOnOff ((t.modelled cfg b).comp cfg) (fillForced b (fillOnOff (t.comp cfg) (fillForced b f))) = fillOnOff (t.comp cfg) (fillForced b f) := by
    intro f
    rw [w, fillForced_again', fillOnOff_twice]
  have g2 : ∀ f, fillOnOff ((t.modelled cfg b).comp cfg) ((t.modelled cfg b).fillIn2 cfg (fillForced b (fillOnOff (t.comp cfg) (t.fillIn2 cfg (fillForced b f))))) =
      fillOnOff (t.comp cfg) (t.fillIn2 cfg (fillForced b f)) := by
    intro f
    rw [show fillForced b (fillOnOff (t.comp cfg) (t.fillIn2 cfg (fillForced b f))) = fillOnOff (t.comp cfg) (t.fillIn2 cfg (fillForced b f)) by
      rw [fillIn2_eq]; exact fillForced_again b _]
    rw [fillIn2_again cfg hs (fillOnOff_keeps _ _), w, fillOnOff_twice]
  refine transData_ext rfl (g _) (g _) ?_ ?_ rfl rfl rfl rfl
  · change ((((t.in2.map fun f => t.fillIn2 cfg (fillForced b f)).map (fillOnOff (t.comp cfg))).map fun f => (t.modelled cfg b).fillIn2 cfg (fillForced b f)).map
      (fillOnOff ((t.modelled cfg b).comp cfg))) = (t.in2.map fun f => t.fillIn2 cfg (fillForced b f)).map (fillOnOff (t.comp cfg))
    cases t.in2 with
    | none => rfl
    | some f => exact congrArg some (g2 f)
  · change ((((t.out2.map (fillForced b)).map (fillOnOff (t.comp cfg))).map (fillForced b)).map
      (fillOnOff ((t.modelled cfg b).comp cfg))) = (t.out2.map (fillForced b)).map (fillOnOff (t.comp cfg))
    cases t.out2 with
    | none => rfl
    | some f => exact congrArg some (g f)

theorem comp_modelled_twice (c : CompData) : c.modelled.modelled = c.modelled := by
  have e : ∀ fs : List FlowData, (fs.map (fillOnOff c)).map (fillOnOff c.modelled) = fs.map (fillOnOff c) := by
    intro fs
    rw [List.map_map]
    refine List.map_congr_left fun f _ => ?_
    simp only [Function.comp]
    rw [fillOnOff_same (c := c.modelled) (d := c) rfl rfl, fillOnOff_twice]
  unfold CompData.modelled at *
  simp only at e ⊢
  rw [e, e]

theorem modelledWith_twice (cfg : Cfg) (b : Bool) (c : Comp) : (c.modelledWith cfg b).modelledWith cfg b = c.modelledWith cfg b := by
  cases c with
  | plain c => simp only [Comp.modelledWith, Comp.modelled, comp_modelled_twice]
  | converter c => simp only [Comp.modelledWith, Comp.modelled, comp_modelled_twice]
  | storage s =>
    simp only [Comp.modelledWith, Comp.modelled]
    have e : ∀ f, fillOnOff (StorageData.comp { s with charging := fillOnOff s.comp s.charging, discharging := fillOnOff s.comp s.discharging }) (fillOnOff s.comp f) = fillOnOff s.comp f := by
      intro f
      rw [fillOnOff_same (c := StorageData.comp { s with charging := fillOnOff s.comp s.charging, discharging := fillOnOff s.comp s.discharging }) (d := s.comp) rfl
        (by simp [StorageData.comp, fillOnOff_label]), fillOnOff_twice]
    rw [e, e]
  | transmission t => simp only [Comp.modelledWith, trans_modelled_twice]

theorem forced_modelledWith (cfg : Cfg) (b : Bool) (a len : Nat) (c : Comp) : (c.modelledWith cfg b).forced a len = c.forced a len := by cases c <;> rfl

/-- A history of modelling leaves a component as it was declared or as one modelling leaves it. -/
theorem history_comp (cfg : Cfg) (b : Bool) : ∀ (sels : List (Nat × Nat)) (c : Comp), (∀ q ∈ sels, c.forced q.1 q.2 = b) →
    sels.foldl (fun c q => c.modelled cfg q.1 q.2) c = c ∨ sels.foldl (fun c q => c.modelled cfg q.1 q.2) c = c.modelledWith cfg b
  | [], _, _ => .inl rfl
  | q :: sels, c, h => by
    right
    rw [List.foldl_cons, modelled_with, h q (by simp)]
    rcases history_comp cfg b sels (c.modelledWith cfg b) (fun p hp => by rw [forced_modelledWith]; exact h p (by simp [hp])) with e | e
    · exact e
    · rw [e, modelledWith_twice]

theorem history_comps (cfg : Cfg) : ∀ (sels : List (Nat × Nat)) (s : System),
    s.history cfg sels = { s with comps := s.comps.map fun c => sels.foldl (fun c q => c.modelled cfg q.1 q.2) c }
  | [], s => by simp [System.history]
  | q :: sels, s => by
    have := history_comps cfg sels (s.modelled cfg q.1 q.2)
    unfold System.history at this ⊢
    rw [List.foldl_cons, this]
    simp [System.modelled, Function.comp_def]

/-- **C89, selections.**  After any calculations and segments with the same flow system a selection of steps is modelled as if it was the first one,
provided that absolute losses of transmissions are nonzero in all these selections or in none. -/
theorem C89_selection_partial (s : System) (sels : List (Nat × Nat)) (a len : Nat) (st : SegStart)
    (h : ∀ t, Comp.transmission t ∈ s.comps → ∀ q ∈ sels, t.forced q.1 q.2 = t.forced a len) :
    systemModel (sys.window a len) ((s.history sys.cfg sels).window a len st) = systemModel (sys.window a len) (s.window a len st) := by
  have e : ∀ c ∈ s.comps, ((sels.foldl (fun c q => c.modelled sys.cfg q.1 q.2) c).window a len st).model (sys.window a len) = (c.window a len st).model (sys.window a len) := by
    intro c hc
    rcases history_comp sys.cfg (c.forced a len) sels c (by
      intro q hq
      cases c with
      | transmission t => exact h t hc q hq
      | _ => rfl) with e | e
    · rw [e]
    · rw [e]
      exact model_again_window (sys.window a len) a len st c
  rw [history_comps]
  unfold systemModel System.window
  simp only [List.map_map]
  rw [mapM_map', mapM_map', mapM_congr_mem (g := fun c => (c.window a len st).model (sys.window a len)) (by simpa [Function.comp] using e)]

theorem window_all {n : Nat} {x : Num} (h : x.Fits n) : x.window 0 n = x := by
  cases x with
  | s x => rfl
  | v xs =>
    rcases h with h | h
    · cases h
    · rw [Num.window, List.drop_zero, List.take_of_length_le (Nat.le_of_eq h)]

theorem model_again (sys : Sys) (c : Comp) (h : ∀ t, c = .transmission t → ∀ x, t.absLosses = some x → x.Fits sys.n) :
    (c.modelledWith sys.cfg (c.forced 0 sys.n)).model sys = c.model sys := by
  cases c with
  | plain c => exact comp_again sys c
  | converter c => exact converter_again sys c
  | storage s =>
    simp only [Comp.modelledWith, Comp.modelled, Comp.model]
    rw [storage_again]
  | transmission t =>
    have e : t.forced 0 sys.n = t.absLosses.any Num.anyNonzero := by
      unfold TransData.forced
      cases hx : t.absLosses with
      | none => rfl
      | some x => simp [window_all (h t rfl x hx)]
    simp only [Comp.modelledWith, Comp.forced, Comp.model, e]
    rw [trans_again]

/-- **C89.**  Modelling the same flow system any number of times gives the same model every time. -/
theorem C89 (s : System) (h : ∀ t, Comp.transmission t ∈ s.comps → ∀ x, t.absLosses = some x → x.Fits sys.n) (k : Nat) :
    systemModel sys (s.history sys.cfg (List.replicate k (0, sys.n))) = systemModel sys s := by
  have e : ∀ c ∈ s.comps, ((List.replicate k (0, sys.n)).foldl (fun c q => c.modelled sys.cfg q.1 q.2) c).model sys = c.model sys := by
    intro c hc
    rcases history_comp sys.cfg (c.forced 0 sys.n) (List.replicate k (0, sys.n)) c (by
      intro q hq
      rw [List.eq_of_mem_replicate hq]) with e | e
    · rw [e]
    · rw [e]
      exact model_again sys c fun t ht => h t (ht ▸ hc)
  rw [history_comps]
  unfold systemModel
  simp only
  rw [mapM_map', mapM_congr_mem e]

/-! ## Examples and counterexamples -/

theorem of_errB {α} {r : Except Err α} {e : Err} (h : (match r with | .ok _ => false | .error e' => decide (e' = e)) = true) : r = .error e := by
  cases r with
  | ok a => cases h
  | error e' => exact congrArg _ (of_decide_eq_true h)

/-- Six hours. -/
def exSix : Sys := { n := 6, dt := [1, 1, 1, 1, 1, 1], total := 6, prevDt := .s 1, cfg := exCfg }

/-- A line with losses in the afternoon only, and a storage whose flows exclude each other. -/
def exLineSystem (losses : List ℚ) : System :=
  { effects := [{ label := "costs", isStandard := true, isObjective := true }]
    comps := [.transmission { label := "Line", in1 := { label := "in", bus := "a", size := .num 10 }, out1 := { label := "out", bus := "b", size := .num 10 }, absLosses := some (.v losses) },
      .storage { label := "Tank", charging := { label := "in", bus := "b", size := .num 5 }, discharging := { label := "out", bus := "b", size := .num 5 }, capacity := .num 20 }]
    buses := [{ label := "a" }, { label := "b" }] }

def exNoStart : SegStart := ⟨fun _ _ => none, fun _ => .num 0⟩

/-- The hypotheses of C89 are met, and modelling changes the declarations. -/
example : (∀ t, Comp.transmission t ∈ (exLineSystem [1, 1, 1, 5, 5, 5]).comps → ∀ x, t.absLosses = some x → x.Fits exSix.n) ∧
    (∀ t, Comp.transmission t ∈ (exLineSystem [1, 1, 1, 5, 5, 5]).comps → ∀ q ∈ [(0, 6), (0, 3)], t.forced q.1 q.2 = t.forced 3 3) ∧
    (∃ o, systemModel exSix (exLineSystem [1, 1, 1, 5, 5, 5]) = .ok o) ∧
    ∃ t, Comp.transmission t ∈ ((exLineSystem [1, 1, 1, 5, 5, 5]).history exCfg [(0, 6)]).comps ∧ t.in1.onOff = some ({} : OnOffParams) := by
  refine ⟨?_, ?_, builds (by decide +kernel), ?_⟩
  · intro t ht x hx
    simp only [exLineSystem, List.mem_cons, Comp.transmission.injEq, reduceCtorEq, List.not_mem_nil, or_false] at ht
    subst ht
    cases hx
    exact .inr rfl
  · intro t ht q hq
    simp only [exLineSystem, List.mem_cons, Comp.transmission.injEq, reduceCtorEq, List.not_mem_nil, or_false] at ht
    subst ht
    simp only [List.mem_cons, List.not_mem_nil, or_false] at hq
    rcases hq with rfl | rfl <;> decide +kernel
  · refine ⟨_, List.mem_cons_self, by decide +kernel⟩

/-- **C89 fails** for selections with and without losses: the morning alone cannot be modelled, after the afternoon it can. -/
theorem C89_selection_wrong : systemModel (exSix.window 0 3) ((exLineSystem [0, 0, 0, 5, 5, 5]).window 0 3 exNoStart) = .error .attribute ∧
    ∃ o, systemModel (exSix.window 0 3) (((exLineSystem [0, 0, 0, 5, 5, 5]).history exSix.cfg [(3, 3)]).window 0 3 exNoStart) = .ok o :=
  ⟨of_errB (by decide +kernel), builds (by decide +kernel)⟩

end Flix
