import Verif.Lemmas.Scale2
import Verif.Lemmas.Rename3

namespace Flix

variable {κ : String → ℚ} {k : ℚ} {E : String → Prop} {el : String} {sys : Sys}

/-! ## Segments -/

def SegVars.Unit1 (κ : String → ℚ) (s : SegVars) : Prop := κ s.inSegment.label = 1 ∧ κ s.lambda0.label = 1 ∧ κ s.lambda1.label = 1

theorem segment_sc (h : ScEl κ k E el) {n i : Nat} {x : SegVars × MTree} (hx : segmentModel el n i = .ok x) : x.1.Unit1 κ ∧ x.2.Sc κ x.2 := by
  unfold segmentModel at hx
  dsimp only at hx
  peel hx with a, ha
  peel hx with b, hb
  peel hx with c, hc
  cases hx
  have ua := mkVar_u (h.segm i "inSegment" (by simp)) ha
  have ub := mkVar_u (h.segm i "lambda0" (by simp)) hb
  have uc := mkVar_u (h.segm i "lambda1" (by simp)) hc
  refine ⟨⟨ua, ub, uc⟩, sc_node (.cons (varS_one ua) (.cons (varS_one ub) (.cons (varS_one uc) .nil))) (.cons (ConReq.Unit1.sc ?_) .nil) .nil⟩
  simp [ConReq.Unit1, mkEq, sAll, Op.Unit1, ua, ub, uc]

/-- The points in the new unit. -/
abbrev ptsIn (k : ℚ) (ps : List (Num × Num)) : List (Num × Num) := ps.map fun p => (p.1.map (k * ·), p.2.map (k * ·))

abbrev PtR (κ : String → ℚ) (k : ℚ) (a b : Var × List (Num × Num)) : Prop :=
  (VarK κ k a.1 b.1 ∧ b.2 = ptsIn k a.2) ∨ (b = a ∧ κ a.1.label = 1)

theorem lambdaOps_sc (k : ℚ) {s : List SegVars} (h : ∀ x ∈ s, x.Unit1 κ) (pts : List (Num × Num)) : OpsR κ k (lambdaOps s pts) (lambdaOps s (ptsIn k pts)) := by
  unfold lambdaOps
  induction s generalizing pts with
  | nil => exact .nil
  | cons a s ih =>
    cases pts with
    | nil => exact .nil
    | cons q pts =>
      simp only [ptsIn, List.map_cons, List.zipWith_cons_cons, List.flatten_cons]
      obtain ⟨_, h0, h1⟩ := h a (by simp)
      have := ih (fun x hx => h x (by simp [hx])) pts
      unfold OpsR at this ⊢
      refine List.rel_append ?_ this
      exact .cons (op_u h0 rfl) (.cons (op_u h1 rfl) .nil)

theorem lambdaOps_one {s : List SegVars} (h : ∀ x ∈ s, x.Unit1 κ) (pts : List (Num × Num)) : ∀ op ∈ lambdaOps s pts, op.Unit1 κ := by
  unfold lambdaOps
  induction s generalizing pts with
  | nil => intro op hop; cases hop
  | cons a s ih =>
    cases pts with
    | nil => intro op hop; cases hop
    | cons q pts =>
      obtain ⟨_, h0, h1⟩ := h a (by simp)
      intro op hop
      simp only [List.zipWith_cons_cons, List.flatten_cons, List.mem_append, List.mem_cons, List.not_mem_nil, or_false] at hop
      rcases hop with (rfl | rfl) | hop
      · exact h0
      · exact h1
      · exact ih (fun x hx => h x (by simp [hx])) pts op hop

theorem restructure_sc (k : ℚ) (nr : Nat) (ps : List (Num × Num)) : restructure nr (ptsIn k ps) = (restructure nr ps).map (ptsIn k) := by
  unfold restructure
  rw [← mapM_map_ok]
  congr 1
  funext i
  exact pyGet_map _ _ _

def Outside.Unit1 (κ : String → ℚ) : Outside → Prop
  | .use x => κ x.label = 1
  | .no => True
  | .create => False

theorem multiple_sc (hk : 0 < k) (h : ScEl κ k E el) {n : Nat} {pts pts' : List (Var × List (Num × Num))} (hpts : List.Forall₂ (PtR κ k) pts pts') {x : Outside} (hx : x.Unit1 κ) :
    ExR (MTree.Sc κ) (multipleSegments el n pts x) (multipleSegments el n pts' x) := by
  unfold multipleSegments
  dsimp only
  have e1 : nrOfSegments pts' = nrOfSegments pts := by
    cases hpts with
    | nil => rfl
    | @cons a b _ _ hh _ =>
      obtain ⟨v, ps⟩ := a
      obtain ⟨v', ps'⟩ := b
      rcases hh with ⟨_, e⟩ | ⟨e, _⟩
      · dsimp only at e
        subst e
        simp [nrOfSegments]
      · cases e; rfl
  rw [e1]
  refine ExR.bind (ExR.refl (R := Eq) (fun _ => rfl) _) fun nr _ e => ?_
  subst e
  refine ExR.bind (R := List.Forall₂ (PtR κ k)) (ExR.mapM hpts ?_) fun ps ps' hps => ?_
  · intro a b _ hab
    rcases hab with ⟨hv, e⟩ | ⟨rfl, hv⟩
    · rw [e, restructure_sc]
      cases restructure nr a.2 with
      | error e => exact .error e
      | ok r => exact .ok (.inl ⟨hv, rfl⟩)
    · exact exR_self fun c hc => by
        peel hc with r, hr
        cases hc
        exact .inr ⟨rfl, hv⟩
  refine ExR.bind (R := fun a b => b = a ∧ (∀ s ∈ a.map (·.1), s.Unit1 κ) ∧ ∀ t ∈ a.map (·.2), t.Sc κ t) (exR_self fun a ha => ⟨rfl, ?_, ?_⟩) fun sg _ e => ?_
  · intro s hs
    obtain ⟨y, hy, rfl⟩ := List.mem_map.1 hs
    obtain ⟨i, _, hi⟩ := forall₂_mem_right (mapM_ok.1 ha) hy
    exact (segment_sc h hi).1
  · intro s hs
    obtain ⟨y, hy, rfl⟩ := List.mem_map.1 hs
    obtain ⟨i, _, hi⟩ := forall₂_mem_right (mapM_ok.1 ha) hy
    exact (segment_sc h hi).2
  obtain ⟨rfl, hsv, hst⟩ := e
  refine ExR.bind (R := fun a b => b = a ∧ a.1 = [] ∧ ∀ op ∈ a.2, op.Unit1 κ) (exR_self fun a ha => ?_) fun vo vo' hvo => ?_
  · refine ⟨rfl, ?_⟩
    cases x with
    | no => cases ha; exact ⟨rfl, by simp [Op.Unit1]⟩
    | use y => cases ha; exact ⟨rfl, by simpa [Op.Unit1, sAll, Outside.Unit1] using hx⟩
    | create => exact hx.elim
  obtain ⟨vs, ops⟩ := vo
  obtain ⟨rfl, rfl, hops⟩ := hvo
  refine .ok (sc_node .nil (List.rel_append ?_ (.cons (ConReq.Unit1.sc ?_) .nil)) (List.forall₂_same.2 hst))
  · rw [List.forall₂_map_left_iff, List.forall₂_map_right_iff]
    refine hps.imp fun a b q => ?_
    rcases q with ⟨hv, e⟩ | ⟨rfl, hv⟩
    · rw [e]
      exact sc_eq hk (.cons (op_k hk hv) (lambdaOps_sc k hsv _))
    · refine ConReq.Unit1.sc fun op hop => ?_
      rcases List.mem_cons.1 hop with rfl | hop
      · exact hv
      · exact lambdaOps_one hsv _ op hop
  · intro op hop
    rcases List.mem_append.1 hop with hop | hop
    · obtain ⟨s, hs, rfl⟩ := List.mem_map.1 hop
      exact (hsv s hs).1
    · exact hops op hop

theorem segmentedShares_sc (hk : 0 < k) (h : ScEl κ k E el) {x x' : Var} (hx : VarK κ k x x') {xs : List (ℚ × ℚ)} (rs : List (String × List (ℚ × ℚ))) (hE : ∀ r ∈ rs, E r.1) {y : Outside} (hy : y.Unit1 κ) :
    ExR (fun a b => a.tree.Sc κ b.tree) (segmentedShares el x xs rs y) (segmentedShares el x' (xs.map fun p => (k * p.1, k * p.2)) rs y) := by
  unfold segmentedShares
  cases rs with
  | nil => exact .error _
  | cons r rs =>
    obtain ⟨l, first⟩ := r
    dsimp only
    rw [List.length_map]
    by_cases hl : xs.length ≠ first.length
    · rw [if_pos hl, if_pos hl]
      exact .error _
    · rw [if_neg hl, if_neg hl]
      refine ExR.bind (R := fun a b => b = a ∧ ∀ v ∈ a, κ v.2.1.label = 1) (exR_self fun a ha => ⟨rfl, fun v hv => ?_⟩) fun vs vs' hvs => ?_
      · obtain ⟨r, hr, e⟩ := forall₂_mem_right (mapM_ok.1 ha) hv
        peel e with w, hw
        cases e
        exact mkVar_u (h.seg r.1 (hE r hr)) hw
      obtain ⟨rfl, hvs⟩ := hvs
      refine ExR.bind (R := MTree.Sc κ) (multiple_sc hk h (List.rel_append ?_ (.cons (.inl ⟨hx, ?_⟩) .nil)) hy) fun t t' ht => ?_
      · rw [List.forall₂_map_left_iff, List.forall₂_map_right_iff]
        exact List.forall₂_same.2 fun v hv => .inr ⟨rfl, hvs v hv⟩
      · simp [ptsIn, Num.map]
      refine ExR.bind (R := fun _ _ => True) (ExR.refl (fun _ => trivial) _) fun _ _ _ => .ok (sc_node ?_ .nil (.cons ht .nil))
      rw [List.forall₂_map_left_iff, List.forall₂_map_right_iff]
      exact List.forall₂_same.2 fun v hv => varS_one (hvs v hv)

theorem prevent_sc {ons : List Var} (h : ∀ v ∈ ons, κ v.label = 1) : ExR (MTree.Sc κ) (preventSimultaneous el ons) (preventSimultaneous el ons) := by
  refine exR_self fun a ha => ?_
  unfold preventSimultaneous at ha
  split at ha
  · cases ha
  · split at ha
    · cases ha
      refine sc_node .nil (.cons (ConReq.Unit1.sc fun op hop => ?_) .nil) .nil
      rcases List.mem_append.1 hop with hop | hop
      · obtain ⟨v, hv, rfl⟩ := List.mem_map.1 hop
        exact h v hv
      · simp only [List.mem_cons, List.not_mem_nil, or_false] at hop
        subst hop
        trivial
    · cases ha

/-! ## Investments -/

structure InvestOut.Sc (κ : String → ℚ) (k : ℚ) (o o' : InvestOut) : Prop where
  size : VarK κ k o.size o'.size
  tree : o.tree.Sc κ o'.tree

theorem pyOr_sc (hk : 0 < k) (a : Option ℚ) (b : ℚ) : pyOr (a.map (k * ·)) (k * b) = k * pyOr a b := by
  cases a with
  | none => rfl
  | some x =>
    simp only [pyOr, Option.map_some, mul_eq_zero, hk.ne', false_or]
    split <;> rfl

theorem pyTruthy_sc (hk : 0 < k) (a : Option ℚ) : pyTruthy (a.map (k * ·)) = pyTruthy a := by
  cases a with
  | none => rfl
  | some x => simp [pyTruthy, hk.ne']

theorem minSize_sc (hk : 0 < k) (q : InvestParams) : (q.inUnit k).minSize = k * q.minSize := pyOr_sc hk _ _

theorem maxSize_sc (hk : 0 < k) (cfg : Cfg) (q : InvestParams) : (q.inUnit k).maxSize (cfg.inUnit k) = k * q.maxSize cfg := by
  unfold InvestParams.maxSize
  dsimp only [InvestParams.inUnit, Cfg.inUnit]
  rw [pyOr_sc hk, pyOr_sc hk]

theorem invest_sc (hk : 0 < k) {cfg : Cfg} (h : ScEl κ k E el) (q : InvestParams) (hq : q.SegIn E) {x x' : Var} (hx : VarK κ k x x') (lo hi : Num) (pr : Option Num) {on : Option Var}
    (hon : ∀ v, on = some v → κ v.label = 1) :
    ExR (InvestOut.Sc κ k) (investModel cfg el q x lo hi pr on) (investModel (cfg.inUnit k) el (q.inUnit k) x' lo hi pr on) := by
  have hmi := minSize_sc hk q
  have hma := maxSize_sc hk cfg q
  have htr : pyTruthy (q.inUnit k).fixedSize = pyTruthy q.fixedSize := pyTruthy_sc hk _
  unfold investModel
  dsimp only
  refine ExR.bind (R := VarK κ k) ?_ fun size size' hs => ?_
  · unfold sizeVar
    rw [htr, show (q.inUnit k).optional = q.optional from rfl, hmi, hma]
    split
    · refine mkVar_k hk (h.e4 (by decide +kernel)) ?_ rfl rfl rfl
      dsimp only [InvestParams.inUnit]
      cases q.fixedSize <;> rfl
    · refine mkVar_k hk (h.e4 (by decide +kernel)) rfl ?_ ?_ rfl
      · cases q.optional <;> simp [Num.map]
      · simp [Num.map]
  refine ExR.bind (R := fun a b => b = a ∧ ∀ v, a = some v → κ v.label = 1) (exR_self (x := investedVar _ q) fun a ha => ⟨rfl, fun v hv => ?_⟩) fun inv inv' hinv => ?_
  · subst hv
    unfold investedVar at ha
    split at ha
    · obtain ⟨w, hw, e⟩ := map_ok.1 ha
      cases e
      exact mkVar_u (h.p4 (by decide +kernel)) hw
    · cases ha
  obtain ⟨rfl, hinv⟩ := hinv
  refine ExR.bind (sharesTo_any) fun _ _ _ => ?_
  refine ExR.bind (R := fun _ _ => True) (ExR.refl (fun _ => trivial) (divestShares el q inv')) fun _ _ _ => ?_
  refine ExR.bind (sharesTo_sc k) fun _ _ _ => ?_
  refine ExR.bind (R := fun a b => List.Forall₂ (MTree.Sc κ) a.1 b.1) ?_ fun st st' hst => ?_
  · unfold investSegments
    rw [show (q.inUnit k).effectsInSegments = q.effectsInSegments.map (fun x => (x.1.map fun p => (k * p.1, k * p.2), x.2)) from rfl]
    cases hs' : q.effectsInSegments with
    | none => exact .ok .nil
    | some y =>
      obtain ⟨xs, rs⟩ := y
      dsimp only [Option.map_some]
      refine ExR.bind (segmentedShares_sc hk h hs rs (hq xs rs hs') ?_) fun a b hab => .ok (.cons hab .nil)
      cases inv' with
      | none => trivial
      | some v => exact hinv v rfl
  obtain ⟨st, s4⟩ := st
  obtain ⟨st', s4'⟩ := st'
  refine .ok ⟨hs, sc_node (.cons hs.s ?_) (List.rel_append ?_ ?_) hst⟩
  · exact List.forall₂_same.2 fun v hv => varS_one (hinv v (Option.mem_toList.1 hv))
  · cases inv' with
    | none => exact .nil
    | some v =>
      have hv := hinv v rfl
      dsimp only
      unfold optionalCons
      rw [htr, hma, hmi]
      split
      · refine .cons (sc_eq hk (.cons (op_k hk hs) (.cons (op_u hv ?_) .nil))) .nil
        dsimp only [InvestParams.inUnit]
        cases q.fixedSize <;> simp [Num.map]
      · refine .cons (sc_ineq hk (.cons (op_k hk hs) (.cons (op_u hv ?_) .nil))) (.cons (sc_ineq hk (.cons (op_k hk hs) (.cons (op_u hv ?_) .nil))) .nil)
        · simp only [Num.map]; congr 1; ring
        · simp only [Num.map, Cfg.inUnit]; congr 1; exact (mul_max_of_nonneg _ _ hk.le).symm
  · unfold definingCons
    cases pr with
    | some f => exact .cons (sc_eq hk (.cons (op_k hk hx) (.cons (op_k hk hs) .nil))) .nil
    | none =>
      dsimp only
      cases on with
      | none => exact .cons (sc_ineq hk (.cons (op_k hk hx) (.cons (op_k hk hs) .nil))) (.cons (sc_ineq hk (.cons (op_k hk hx) (.cons (op_k hk hs) .nil))) .nil)
      | some v =>
        have hv := hon v rfl
        have e : (hi.map (· * (q.inUnit k).maxSize (cfg.inUnit k))) = (hi.map (· * q.maxSize cfg)).map (k * ·) := by
          rw [hma, num_map_map]
          exact num_map_congr (fun x => by ring) hi
        exact .cons (sc_ineq hk (.cons (op_k hk hx) (.cons (op_k hk hs) .nil)))
          (.cons (sc_ineq hk (.cons (op_k hk hx) (.cons (op_u hv e) (.cons (op_k hk hs) (.cons (op_c e) .nil))))) .nil)

/-! ## Flows -/

structure FlowOut.Sc (κ : String → ℚ) (k : ℚ) (o o' : FlowOut) : Prop where
  rate : VarK κ k o.flowRate o'.flowRate
  onOff : Option.Rel (OnOffOut.Sc κ) o.onOff o'.onOff
  invest : Option.Rel (InvestOut.Sc κ k) o.invest o'.invest
  tree : o.tree.Sc κ o'.tree

theorem effSize_sc (hk : 0 < k) (cfg : Cfg) (f : FlowData) : (f.inUnit k).effSize (cfg.inUnit k) = (f.effSize cfg).inUnit k := by
  unfold FlowData.effSize FlowData.inUnit
  cases f.size with
  | unset => rfl
  | num x => exact congrArg Size.num (pyOr_sc hk (some x) cfg.big)
  | invest q => rfl

theorem absBounds_sc (hk : 0 < k) (cfg : Cfg) (f : FlowData) :
    (f.inUnit k).absBounds (cfg.inUnit k) = ((f.absBounds cfg).1.map (k * ·), (f.absBounds cfg).2.map (k * ·)) := by
  have key : ∀ (a b : Num) (x y : ℚ), (a.map (· * (k * x)), b.map (· * (k * y))) = ((a.map (· * x)).map (k * ·), (b.map (· * y)).map (k * ·)) := by
    intro a b x y
    rw [num_map_map, num_map_map]
    exact congrArg₂ _ (num_map_congr (fun z => by ring) a) (num_map_congr (fun z => by ring) b)
  unfold FlowData.absBounds
  rw [effSize_sc hk, show (f.inUnit k).relBounds = f.relBounds from rfl]
  obtain ⟨lo, hi⟩ := f.relBounds
  dsimp only
  cases f.effSize cfg with
  | num x => exact key lo hi x x
  | invest q =>
    dsimp only [Size.inUnit]
    rw [minSize_sc hk, maxSize_sc hk]
    dsimp only [InvestParams.inUnit]
    cases q.fixedSize with
    | none => exact key lo hi _ _
    | some x => exact key lo hi x x

theorem loadFactor_sc (hk : 0 < k) {f : FlowData} {s s' : Var} (hs : VarK κ k s s') {i i' : Option InvestOut} (hi : Option.Rel (InvestOut.Sc κ k) i i') :
    ConsS κ (loadFactorCons sys el f s i) (loadFactorCons (sys.inUnit k) el (f.inUnit k) s' i') := by
  unfold loadFactorCons
  rw [show (sys.inUnit k).cfg = sys.cfg.inUnit k from rfl, effSize_sc hk, show (f.inUnit k).loadFactorMax = f.loadFactorMax from rfl, show (f.inUnit k).loadFactorMin = f.loadFactorMin from rfl,
    show (sys.inUnit k).total = sys.total from rfl]
  cases hi with
  | none =>
    cases f.effSize sys.cfg <;> dsimp only [Size.inUnit] <;> refine List.rel_append ?_ ?_
    all_goals first
      | (cases f.loadFactorMax with
          | none => exact .nil
          | some lf => exact .cons (sc_ineq hk (.cons (op_k hk hs) (.cons (op_c (by simp only [Num.map]; congr 1; ring)) .nil))) .nil)
      | (cases f.loadFactorMin with
          | none => exact .nil
          | some lf => exact .cons (sc_ineq hk (.cons (op_k hk hs) (.cons (op_c (by simp only [Num.map]; congr 1; ring)) .nil))) .nil)
  | some h =>
    dsimp only
    refine List.rel_append ?_ ?_
    · cases f.loadFactorMax with
      | none => exact .nil
      | some lf => exact .cons (sc_ineq hk (.cons (op_k hk hs) (.cons (op_k hk h.size) .nil))) .nil
    · cases f.loadFactorMin with
      | none => exact .nil
      | some lf => exact .cons (sc_ineq hk (.cons (op_k hk hs) (.cons (op_k hk h.size) .nil))) .nil

theorem flow_sc (hu : UnitOk sys k) (h : ScEl κ k E el) (f : FlowData) (hf : f.SegIn E) : ExR (FlowOut.Sc κ k) (flowModel sys el f) (flowModel (sys.inUnit k) el (f.inUnit k)) := by
  have hk := hu.pos
  have hab := absBounds_sc hk sys.cfg f
  unfold flowModel
  dsimp only
  refine ExR.bind (R := VarK κ k) ?_ fun rate rate' hr => ?_
  · unfold flowRateVar
    rw [show (sys.inUnit k).cfg = sys.cfg.inUnit k from rfl, hab, show (f.inUnit k).onOff = f.onOff from rfl]
    cases f.onOff with
    | none => exact mkVar_k hk (h.e2 (by decide +kernel)) rfl rfl rfl rfl
    | some q => exact mkVar_k hk (h.e2 (by decide +kernel)) rfl (by simp [Num.map]) rfl rfl
  refine ExR.bind (R := Option.Rel (OnOffOut.Sc κ)) ?_ fun on on' hon => ?_
  · unfold flowOnOff
    rw [show (sys.inUnit k).cfg = sys.cfg.inUnit k from rfl, hab, show (f.inUnit k).onOff = f.onOff from rfl]
    cases f.onOff with
    | none => exact .ok .none
    | some q => exact ExR.map (onOff_sc hu q (.cons ⟨hr, rfl⟩ .nil) h) fun _ _ k => .some k
  refine ExR.bind (R := Option.Rel (InvestOut.Sc κ k)) ?_ fun inv inv' hinv => ?_
  · unfold flowInvest
    rw [show (sys.inUnit k).cfg = sys.cfg.inUnit k from rfl, effSize_sc hk]
    have e : on'.map (·.on) = on.map (·.on) := by
      cases hon with
      | none => rfl
      | some k => simp [k.on]
    rw [e]
    cases hq : f.effSize sys.cfg with
    | num x => exact .ok .none
    | invest q =>
      refine ExR.map (invest_sc hk h q (hf.eff hq) hr _ _ _ fun v hv => ?_) fun _ _ k => .some k
      cases hon with
      | none => cases hv
      | some k => cases hv; exact k.fac
  refine ExR.bind (R := VarK κ k) (mkVar_k hk (h.e2 (by decide +kernel)) rfl ?_ ?_ rfl) fun sum sum' hs => ?_
  · dsimp only [FlowData.inUnit]
    cases f.flowHoursTotalMin <;> rfl
  · dsimp only [FlowData.inUnit]
    cases f.flowHoursTotalMax <;> rfl
  refine ExR.bind (sharesTo_sc k) fun _ _ _ => .ok ⟨hr, hon, hinv, sc_node (.cons hr.s (.cons hs.s .nil)) (.cons (sc_eq hk ?_) (loadFactor_sc hk hs hinv)) (List.rel_append ?_ ?_)⟩
  · exact .cons (op_k hk hr) (.cons (op_k hk hs) .nil)
  · exact optRel_toList hon fun _ _ k => k.tree
  · exact optRel_toList hinv fun _ _ k => k.tree

end Flix
