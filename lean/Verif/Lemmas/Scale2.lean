import Verif.Lemmas.Scale
import Verif.Lemmas.Names
import Verif.Lemmas.OnOffComplete
import Verif.Lemmas.Fine

namespace Flix

/-- The other variables of an element: states, decisions, hours. -/
def plainEndings : List String :=
  ["__OnOff_on", "__OnOff_off", "__OnOff_consecutiveOnHours", "__OnOff_consecutiveOffHours", "__OnOff_totalOnHours", "__OnOff_switchOn", "__OnOff_switchOff", "__OnOff_nrSwitchOn",
    "__Investment_isInvested"]

/-- The factors of the variables of the element `el`; `E` are the effects named in segments. -/
structure ScEl (κ : String → ℚ) (k : ℚ) (E : String → Prop) (el : String) : Prop where
  energy : ∀ s ∈ energyEndings, κ (el ++ s) = k
  plain : ∀ s ∈ plainEndings, κ (el ++ s) = 1
  seg : ∀ e, E e → κ (el ++ "__" ++ "SegmentedShares" ++ "_" ++ (e ++ "_segmented")) = 1
  segm : ∀ i : Nat, ∀ s ∈ ["inSegment", "lambda0", "lambda1"], κ (el ++ "__" ++ "Segment_" ++ toString i ++ "_" ++ s) = 1

variable {κ : String → ℚ} {k : ℚ} {E : String → Prop} {el : String}

theorem ScEl.e2 (h : ScEl κ k E el) {n : String} (hn : "_" ++ n ∈ energyEndings) : κ (el ++ "_" ++ n) = k := by
  rw [String.append_assoc]; exact h.energy _ hn

theorem ScEl.e4 (h : ScEl κ k E el) {q p n : String} (hn : q ++ p ++ "_" ++ n ∈ energyEndings) : κ (el ++ q ++ p ++ "_" ++ n) = k := by
  have := h.energy _ hn
  simpa only [String.append_assoc] using this

theorem ScEl.p3 (h : ScEl κ k E el) {p n : String} (hn : p ++ "_" ++ n ∈ plainEndings) : κ (el ++ p ++ "_" ++ n) = 1 := by
  have := h.plain _ hn
  simpa only [String.append_assoc] using this

theorem ScEl.p4 (h : ScEl κ k E el) {q p n : String} (hn : q ++ p ++ "_" ++ n ∈ plainEndings) : κ (el ++ q ++ p ++ "_" ++ n) = 1 := by
  have := h.plain _ hn
  simpa only [String.append_assoc] using this

/-- An energy variable in its new unit. -/
structure VarK (κ : String → ℚ) (k : ℚ) (v v' : Var) : Prop where
  eq : v' = v.sc κ
  fac : κ v.label = k
  bin : v.isBinary = false

theorem VarK.s {v v' : Var} (h : VarK κ k v v') : VarS κ v v' := ⟨h.eq, fun e => by rw [h.bin] at e; cases e⟩

theorem var_sc_one {v : Var} (h : κ v.label = 1) : v.sc κ = v := by
  have : ∀ a : Option Num, a.map (Num.map (1 * ·)) = a := by
    intro a
    cases a with
    | none => rfl
    | some a => rw [Option.map_some, num_map_id fun x => one_mul x]
  unfold Var.sc
  rw [h, this, this, this, this]

theorem varS_one {v : Var} (h : κ v.label = 1) : VarS κ v v := ⟨(var_sc_one h).symm, fun _ => h⟩

abbrev ConsS (κ : String → ℚ) : List ConReq → List ConReq → Prop := List.Forall₂ (ConReq.Sc κ)

abbrev OpsR (κ : String → ℚ) (r : ℚ) : List Op → List Op → Prop := List.Forall₂ fun a b => b = a.sc κ r

theorem sc_eq (hk : 0 < k) {p n p' n' : String} {ops ops' : List Op} (h : OpsR κ k ops ops') : (mkEq p n ops).Sc κ (mkEq p' n' ops') := ⟨rfl, k, hk, forall₂_rn_map h⟩
theorem sc_ineq (hk : 0 < k) {p n p' n' : String} {ops ops' : List Op} (h : OpsR κ k ops ops') : (mkIneq p n ops).Sc κ (mkIneq p' n' ops') := ⟨rfl, k, hk, forall₂_rn_map h⟩

theorem op_k (hk : 0 < k) {v v' : Var} (h : VarK κ k v v') {f : Num} {i : Option (List Nat)} {a : Bool} : Op.summand v' f i a = (Op.summand v f i a).sc κ k := by
  rw [Op.sc, h.eq, h.fac, div_self hk.ne', num_map_id fun x => mul_one x]

theorem op_u {v : Var} (h : κ v.label = 1) {f f' : Num} {i : Option (List Nat)} {a : Bool} (hf : f' = f.map (k * ·)) : Op.summand v f' i a = (Op.summand v f i a).sc κ k := by
  rw [Op.sc, var_sc_one h, h, hf, div_one]
  exact congrArg (fun f => Op.summand v f i a) (num_map_congr (fun x => mul_comm _ _) f)

theorem op_c {c c' : Num} (h : c' = c.map (k * ·)) : Op.const c' = (Op.const c).sc κ k := by rw [h]; rfl

/-- All variables of a row keep their unit. -/
def Op.Unit1 (κ : String → ℚ) : Op → Prop
  | .summand x _ _ _ => κ x.label = 1
  | .const _ => True

def ConReq.Unit1 (κ : String → ℚ) (c : ConReq) : Prop := ∀ op ∈ c.ops, op.Unit1 κ

theorem ConReq.Unit1.sc {c : ConReq} (h : c.Unit1 κ) : c.Sc κ c := by
  refine ⟨rfl, 1, one_pos, ?_⟩
  have : ∀ op ∈ c.ops, op.sc κ 1 = op := by
    intro op hop
    have := h op hop
    cases op with
    | summand x f i a => exact (op_u this (num_map_id (fun x => one_mul x) f).symm).symm
    | const c => exact congrArg _ (num_map_id (fun x => one_mul x) c)
  rw [List.map_congr_left this, List.map_id']

theorem plain_cons {cs : List ConReq} (h : ∀ c ∈ cs, c.Unit1 κ) : ConsS κ cs cs := List.forall₂_same.2 fun c hc => (h c hc).sc

theorem exR_self {α : Type} {R : α → α → Prop} {x : Except Err α} (h : ∀ a, x = .ok a → R a a) : ExR R x x := by
  cases x with
  | ok a => exact .ok (h a rfl)
  | error e => exact .error e

theorem zip_same {f f' : ℚ → ℚ → ℚ} {g h : ℚ → ℚ} (e : ∀ x y, f (g x) (h y) = f' x y) (a b : Num) : Num.zip f (a.map g) (b.map h) = Num.zip f' a b := by
  rw [zip_maps (f' := f') (p := id) e]
  cases Num.zip f' a b with
  | error e => rfl
  | ok c => simp [Except.map, num_map_id]

theorem npAll_sc {c : ℚ} {r : ℚ → ℚ → Bool} (hr : ∀ x y, r (c * x) (c * y) = r x y) (a b : Num) : npAll r (a.map (c * ·)) (b.map (c * ·)) = npAll r a b := by
  unfold npAll
  rw [zip_same (f' := fun x y => if r x y then 1 else 0)]
  intro x y
  rw [hr]

theorem boundOk_sc {c : ℚ} {r : ℚ → ℚ → Bool} (hr : ∀ x y, r (c * x) (c * y) = r x y) (a : Num) (b : Option Num) :
    boundOk r (a.map (c * ·)) (b.map (Num.map (c * ·))) = boundOk r a b := by
  cases b with
  | none => rfl
  | some b => exact npAll_sc hr a b

theorem checked_sc (hκ : 0 < k) {x : Var} (h : κ x.label = k) (hb : x.isBinary = false) : ExR (VarK κ k) x.checked (x.sc κ).checked := by
  obtain ⟨l, n, b, fv, lo, hi, pr⟩ := x
  dsimp only at h hb
  unfold Var.checked
  cases fv with
  | none => exact .ok ⟨rfl, h, hb⟩
  | some fv =>
    dsimp only [Var.sc, Option.map_some]
    rw [h]
    rw [boundOk_sc (fun x y => by simp [hκ]), boundOk_sc (fun x y => by simp [hκ])]
    refine ExR.bind (ExR.refl (R := Eq) (fun _ => rfl) _) fun a b e => ?_
    subst e
    refine ExR.bind (ExR.refl (R := Eq) (fun _ => rfl) _) fun a' b' e => ?_
    subst e
    split
    · exact .ok ⟨by simp [Var.sc, h], h, hb⟩
    · exact .error _

theorem mkVar_k (hk : 0 < k) {p n : String} (h : κ (p ++ "_" ++ n) = k) {len : Nat} {fv lb ub pr fv' lb' ub' pr' : Option Num} (e1 : fv' = fv.map (Num.map (k * ·)))
    (e2 : lb' = lb.map (Num.map (k * ·))) (e3 : ub' = ub.map (Num.map (k * ·))) (e4 : pr' = pr.map (Num.map (k * ·))) :
    ExR (VarK κ k) (mkVar p n len false fv lb ub pr) (mkVar p n len false fv' lb' ub' pr') := by
  subst e1 e2 e3 e4
  unfold mkVar
  by_cases hl : len > 1
  · rw [if_pos hl, if_pos hl]
    unfold Var.checkedTS
    simp only [hl, if_true]
    have := checked_sc (κ := κ) hk (x := { label := p ++ "_" ++ n, length := len, isBinary := false, fixedValue := fv, lb, ub, previous := pr }) h rfl
    unfold Var.sc at this
    rwa [h] at this
  · rw [if_neg hl, if_neg hl]
    have := checked_sc (κ := κ) hk (x := { label := p ++ "_" ++ n, length := len, isBinary := false, fixedValue := fv, lb, ub, previous := none }) h rfl
    unfold Var.sc at this
    rwa [h] at this

theorem mkVar_u {p n : String} {len : Nat} {b : Bool} {fv lb ub pr : Option Num} {v : Var} (h : κ (p ++ "_" ++ n) = 1) (hv : mkVar p n len b fv lb ub pr = .ok v) : κ v.label = 1 := by
  rw [(mkVar_ok hv).1]; exact h

theorem sharesTo_sc {t : Target} {e n : String} {d : EffDict} {f : Num} {v v' : Option Var} (k : ℚ) :
    ExR (fun _ _ => True) (sharesTo t e n d f v) (sharesTo t e n (EffDict.perUnit k d) f v') := by
  unfold sharesTo EffDict.perUnit
  refine (ExR.mapM (Q := fun a b => b = (a.1, a.2.map (· / k))) (R := fun _ _ => True) (forall₂_map_right fun a _ => rfl) ?_).imp fun _ _ _ => trivial
  rintro ⟨a, x⟩ b _ rfl
  refine ExR.bind (R := fun _ _ => True) ?_ fun a b _ => .ok trivial
  dsimp only
  have : Num.mul (x.map (· / k)) f = (Num.mul x f).map (Num.map (· / k)) := by
    have := zip_maps (f := (· * ·)) (f' := (· * ·)) (g := (· / k)) (h := id) (p := (· / k)) (fun x y => by simp [div_mul_eq_mul_div]) x f
    rwa [num_map_id (f := id) fun _ => rfl] at this
  rw [this]
  cases Num.mul x f with
  | error e => exact .error e
  | ok y => exact .ok trivial

theorem sharesTo_any {t : Target} {e n : String} {d : EffDict} {f : Num} {v v' : Option Var} : ExR (fun _ _ => True) (sharesTo t e n d f v) (sharesTo t e n d f v') := by
  unfold sharesTo
  refine (ExR.mapM (Q := Eq) (R := fun _ _ => True) (List.forall₂_same.2 fun _ _ => rfl) ?_).imp fun _ _ _ => trivial
  rintro a b _ rfl
  exact ExR.bind (ExR.refl (R := fun _ _ => True) (fun _ => trivial) _) fun a b _ => .ok trivial

/-! ## On/off models -/

/-- Both values of the smallest flow are values of a number between 0 and 1, so that it separates 0 from 1. -/
structure UnitOk (sys : Sys) (k : ℚ) : Prop where
  pos : 0 < k
  eps0 : 0 ≤ sys.cfg.eps
  eps1 : sys.cfg.eps < 1
  keps1 : k * sys.cfg.eps < 1

theorem lastDuration_bin {e e' : ℚ} (h0 : 0 ≤ e) (h1 : e < 1) (h0' : 0 ≤ e') (h1' : e' < 1) {bs : List ℚ} (hb : ∀ x ∈ bs, x = 0 ∨ x = 1) :
    lastDurationLength e' bs = lastDurationLength e bs := by
  unfold lastDurationLength
  have : (List.range bs.length).filter (fun i => decide (|bs.getD i 0| ≤ e')) = (List.range bs.length).filter fun i => decide (|bs.getD i 0| ≤ e) := by
    refine List.filter_congr fun i hi => ?_
    have hi := List.mem_range.1 hi
    rw [List.getD_eq_getElem?_getD, List.getElem?_eq_getElem hi, Option.getD_some, decide_eq_decide]
    rcases hb _ (List.getElem_mem hi) with e | e <;> rw [e]
    · simp [h0, h0']
    · simp [not_le.2 h1, not_le.2 h1']
  rw [this]

theorem prevDuration_sc {sys : Sys} (hu : UnitOk sys k) {b : Var} (hb : ∀ bs, b.previous = some (.v bs) → ∀ x ∈ bs, x = 0 ∨ x = 1) : prevDuration (sys.inUnit k) b = prevDuration sys b := by
  unfold prevDuration Var.previousValues
  split
  · simp only [ok_bind]
    cases hp : b.previous with
    | none => rfl
    | some p =>
      dsimp only
      cases p with
      | s x => cases h : sys.prevDt <;> simp [getConsecutiveDuration, Sys.inUnit, h]
      | v bs =>
        have := lastDuration_bin hu.eps0 hu.eps1 (mul_nonneg hu.pos.le hu.eps0) hu.keps1 (hb bs hp)
        cases h : sys.prevDt <;> simp [getConsecutiveDuration, Sys.inUnit, Cfg.inUnit, h, this]
  · rfl

theorem minDuration_sc {sys : Sys} {p lp : String} {dur b : Var} {prev : ℚ} (m : Option Num) (hd : κ dur.label = 1) (hb : κ b.label = 1) :
    ExR (fun x y => y = x ∧ ∀ c ∈ x, c.Unit1 κ) (minDurationCons sys p lp dur b prev m) (minDurationCons (sys.inUnit k) p lp dur b prev m) := by
  refine exR_self (x := minDurationCons sys p lp dur b prev m) fun a ha => ⟨rfl, ?_⟩
  unfold minDurationCons at ha
  cases m with
  | none => cases ha; simp
  | some m =>
    dsimp only at ha
    peel ha with m0, hm0
    cases ha
    intro c hc
    rcases List.mem_cons.1 hc with rfl | hc
    · simp [ConReq.Unit1, mkIneq, sIdx, Op.Unit1, hd, hb]
    · split at hc
      · rw [List.mem_singleton] at hc
        subst hc
        simp [ConReq.Unit1, mkEq, sIdx, Op.Unit1, hb]
      · cases hc

theorem getDuration_sc {sys : Sys} (hu : UnitOk sys k) {p n : String} {b : Var} (h : κ (p ++ "_" ++ n) = 1) (hb : κ b.label = 1)
    (hp : ∀ bs, b.previous = some (.v bs) → ∀ x ∈ bs, x = 0 ∨ x = 1) (mi ma : Option Num) :
    ExR (fun x y => y = x ∧ κ x.1.label = 1 ∧ ∀ c ∈ x.2, c.Unit1 κ) (getDuration sys p n b mi ma) (getDuration (sys.inUnit k) p n b mi ma) := by
  unfold getDuration
  rw [prevDuration_sc hu hp]
  refine ExR.bind (R := Eq) (ExR.refl (fun _ => rfl) (prevDuration sys b)) fun x y e => ?_
  subst e
  refine ExR.bind (R := fun v v' => v' = v ∧ κ v.label = 1) (exR_self fun a ha => ⟨rfl, mkVar_u h ha⟩) fun d d' e => ?_
  obtain ⟨rfl, hd⟩ := e
  dsimp only
  refine ExR.bind (R := Eq) (ExR.refl (fun _ => rfl) (pyGet sys.dt 0)) fun x y e => ?_
  subst e
  refine ExR.bind (minDuration_sc mi hd hb) fun c c' hc => ?_
  obtain ⟨rfl, hc⟩ := hc
  refine .ok ⟨rfl, hd, fun c hm => ?_⟩
  simp only [List.mem_append, List.mem_cons, List.not_mem_nil, or_false] at hm
  rcases hm with ((rfl | rfl | rfl) | hm) | rfl
  · simp [ConReq.Unit1, mkIneq, sAll, Op.Unit1, hd, hb]
  · simp [ConReq.Unit1, mkIneq, sIdx, Op.Unit1, hd]
  · simp [ConReq.Unit1, mkIneq, sIdx, Op.Unit1, hd, hb]
  · exact hc c hm
  · simp [ConReq.Unit1, mkEq, sIdx, Op.Unit1, hd, hb]

/-- A defining variable with its bounds in the new unit. -/
abbrev DefR (κ : String → ℚ) (k : ℚ) : Var × Num × Num → Var × Num × Num → Prop := fun d d' => VarK κ k d.1 d'.1 ∧ d'.2 = (d.2.1.map (k * ·), d.2.2.map (k * ·))

theorem foldAdd_sc {ds ds' : List (Var × Num × Num)} (h : List.Forall₂ (DefR κ k) ds ds') (a : Num) :
    (ds'.foldlM (fun a d => Num.add a d.2.2) (a.map (k * ·)) : Except Err Num) = (ds.foldlM (fun a d => Num.add a d.2.2) a).map (Num.map (k * ·)) := by
  induction h generalizing a with
  | nil => rfl
  | cons hh _ ih =>
    rw [List.foldlM_cons, List.foldlM_cons, hh.2]
    dsimp only
    unfold Num.add
    rw [zip_maps (f' := (· + ·)) (p := (k * ·)) (fun x y => (mul_add k x y).symm)]
    rename_i d d' l m _ 
    cases Num.zip (· + ·) a d.2.2 with
    | error e => rfl
    | ok b => exact ih b

theorem onConstraints_sc {sys : Sys} (hk : 0 < k) {p : String} {on : Var} (hon : κ on.label = 1) {ds ds' : List (Var × Num × Num)} (h : List.Forall₂ (DefR κ k) ds ds') :
    ExR (ConsS κ) (onConstraints sys p on ds) (onConstraints (sys.inUnit k) p on ds') := by
  have hmax : ∀ x, max (k * sys.cfg.eps) (k * x) = k * max sys.cfg.eps x := fun x => (mul_max_of_nonneg _ _ hk.le).symm
  have many : ∀ (c : Num) {ds ds' : List (Var × Num × Num)}, List.Forall₂ (DefR κ k) ds ds' →
      OpsR κ k (ds.map fun d => sIdx d.1 c (List.range sys.n)) (ds'.map fun d => sIdx d.1 c (List.range sys.n)) := by
    intro c ds ds' h
    unfold OpsR
    rw [List.forall₂_map_left_iff, List.forall₂_map_right_iff]
    exact h.imp fun d d' hd => op_k hk hd.1
  cases h with
  | nil => exact .error _
  | @cons d d' ds ds' h1 t1 =>
    cases t1 with
    | nil =>
      obtain ⟨x, lb, ub⟩ := d
      obtain ⟨x', q⟩ := d'
      obtain ⟨hx, e⟩ := h1
      dsimp only at hx e
      subst e
      refine .ok (.cons (sc_ineq hk (.cons (op_k hk hx) (.cons (op_u hon ?_) .nil))) (.cons (sc_ineq hk (.cons (op_k hk hx) (.cons (op_u hon ?_) .nil))) .nil))
      · rw [num_map_map, num_map_map]
        exact num_map_congr hmax lb
      · rw [num_map_map, num_map_map]
        exact num_map_congr (fun x => by ring) ub
    | @cons e e' ds ds' h2 t2 =>
      have hall : List.Forall₂ (DefR κ k) (d :: e :: ds) (d' :: e' :: ds') := .cons h1 (.cons h2 t2)
      have hlen := hall.length_eq
      unfold onConstraints
      dsimp only
      rw [show (Num.s 0) = (Num.s 0).map (k * ·) by simp [Num.map]]
      rw [foldAdd_sc hall]
      rw [show ((Num.s 0).map (k * ·)) = Num.s 0 by simp [Num.map]]
      refine ExR.bind (R := fun a b => b = a.map (k * ·)) ?_ fun a b e => ?_
      · cases (List.foldlM (fun a (d : Var × Num × Num) => Num.add a d.2.2) (.s 0) (d :: e :: ds) : Except Err Num) with
        | error e => exact .error e
        | ok a => exact .ok rfl
      subst e
      rw [← hlen]
      refine .ok (.cons (sc_ineq hk (List.rel_append (many _ hall) (.cons (op_u hon ?_) .nil))) (.cons (sc_ineq hk (List.rel_append (many _ hall) (.cons (op_u hon ?_) .nil))) .nil))
      · rfl
      · rw [num_map_map, num_map_map, num_map_map, num_map_map]
        exact num_map_congr (fun x => by ring) a

theorem switch_plain {sys : Sys} {p : String} {on a b c : Var} {cs : List ConReq} (h : switchConstraints sys p on a b c = .ok cs) (h1 : κ on.label = 1) (h2 : κ a.label = 1) (h3 : κ b.label = 1)
    (h4 : κ c.label = 1) : ∀ c ∈ cs, c.Unit1 κ := by
  unfold switchConstraints at h
  peel h with l, hl
  cases h
  intro c hm
  simp only [List.mem_cons, List.not_mem_nil, or_false] at hm
  rcases hm with rfl | rfl | rfl | rfl <;> simp [ConReq.Unit1, mkIneq, mkEq, sIdx, sAll, sSum, Op.Unit1, h1, h2, h3, h4]

theorem isOn_sc (hk : 0 < k) (e x : ℚ) : isOn (k * e) (k * x) = isOn e x := by
  unfold isOn
  rw [abs_mul, abs_of_pos hk]
  simp [hk]

theorem prevOnOfList_sc (hk : 0 < k) (e : ℚ) (ps : List Num) : prevOnOfList (k * e) (ps.map (Num.map (k * ·))) = prevOnOfList e ps := by
  rw [prevOn_eq, prevOn_eq, List.isEmpty_map]
  have e1 : (ps.map (Num.map (k * ·))).filterMap Num.number? = (ps.filterMap Num.number?).map (k * ·) := by
    rw [List.filterMap_map, List.map_filterMap]
    congr 1
    funext a
    cases a <;> rfl
  have e2 : (ps.map (Num.map (k * ·))).filterMap Num.series? = (ps.filterMap Num.series?).map (List.map (k * ·)) := by
    rw [List.filterMap_map, List.map_filterMap]
    congr 1
    funext a
    cases a <;> rfl
  rw [e1, e2, List.isEmpty_map, List.isEmpty_map]
  generalize ps.filterMap Num.number? = sc
  generalize ps.filterMap Num.series? = ar
  have e3 : (sc.map (k * ·)).map (isOn (k * e)) = sc.map (isOn e) := by
    rw [List.map_map]
    exact List.map_congr_left fun x _ => isOn_sc hk e x
  have e4 : ∀ ar : List (List ℚ), (ar.map (List.map (k * ·))).map (List.map (isOn (k * e))) = ar.map (List.map (isOn e)) := by
    intro ar
    rw [List.map_map]
    refine List.map_congr_left fun r _ => ?_
    simp only [Function.comp_apply, List.map_map]
    exact List.map_congr_left fun x _ => isOn_sc hk e x
  rw [e3]
  cases ar with
  | nil => rfl
  | cons a as =>
    rw [List.map_cons]
    dsimp only
    have e5 : (as.map (List.map (k * ·))).all (fun b => b.length == (a.map (k * ·)).length) = as.all fun b => b.length == a.length := by
      rw [List.all_map]
      congr 1
      funext b
      simp
    rw [e5]
    have := e4 (a :: as)
    rw [List.map_cons] at this
    rw [this]

theorem previousOn_sc (hk : 0 < k) (e : ℚ) {vs vs' : List Var} (h : List.Forall₂ (VarK κ k) vs vs') : previousOnValues (k * e) vs' = previousOnValues e vs := by
  unfold previousOnValues
  have : vs'.mapM Var.previousValues = (vs.mapM Var.previousValues).map (List.map (Option.map (Num.map (k * ·)))) := by
    induction h with
    | nil => rfl
    | @cons v v' vs vs' hh _ ih =>
      rw [List.mapM_cons, List.mapM_cons, ih]
      have : v'.previousValues = v.previousValues.map (Option.map (Num.map (k * ·))) := by
        rw [hh.eq]
        unfold Var.previousValues Var.sc
        rw [hh.fac]
        dsimp only
        split <;> rfl
      rw [this]
      cases v.previousValues with
      | error e => rfl
      | ok a =>
        cases vs.mapM Var.previousValues with
        | error e => rfl
        | ok b => rfl
  rw [this]
  cases vs.mapM Var.previousValues with
  | error e => rfl
  | ok ps =>
    simp only [Except.map, ok_bind]
    rw [List.filterMap_map, ← prevOnOfList_sc hk e]
    refine congrArg _ ?_
    rw [List.map_filterMap]
    rfl

structure OnOffOut.Sc (κ : String → ℚ) (o o' : OnOffOut) : Prop where
  on : o'.on = o.on
  fac : κ o.on.label = 1
  vars : o'.vars = o.vars
  facs : ∀ v ∈ o.vars, κ v.label = 1
  cons : ConsS κ o.cons o'.cons

theorem OnOffOut.Sc.tree {o o' : OnOffOut} (h : o.Sc κ o') : o.tree.Sc κ o'.tree := by
  refine sc_node ?_ h.cons .nil
  rw [h.vars]
  exact List.forall₂_same.2 fun v hv => varS_one (h.facs v hv)

abbrev PartS (κ : String → ℚ) : Option (Var × List ConReq) → Option (Var × List ConReq) → Prop := fun x y => y = x ∧ ∀ a, x = some a → κ a.1.label = 1 ∧ ∀ c ∈ a.2, c.Unit1 κ

abbrev SwS (κ : String → ℚ) : Option (Var × Var × Var × List ConReq) → Option (Var × Var × Var × List ConReq) → Prop :=
  fun x y => y = x ∧ ∀ a, x = some a → κ a.1.label = 1 ∧ κ a.2.1.label = 1 ∧ κ a.2.2.1.label = 1 ∧ ∀ c ∈ a.2.2.2, c.Unit1 κ

theorem PartS.cons {x y : Option (Var × List ConReq)} (h : PartS κ x y) : ConsS κ ((x.map (·.2)).getD []) ((y.map (·.2)).getD []) := by
  obtain ⟨rfl, h⟩ := h
  cases y with
  | none => exact .nil
  | some a => exact plain_cons (h a rfl).2

theorem PartS.facs {x y : Option (Var × List ConReq)} (h : PartS κ x y) : ∀ v ∈ (x.map (·.1)).toList, κ v.label = 1 := by
  obtain ⟨rfl, h⟩ := h
  cases y with
  | none => simp
  | some a => simpa using (h a rfl).1

theorem onOff_sc {sys : Sys} (hu : UnitOk sys k) (q : OnOffParams) {ds ds' : List (Var × Num × Num)} (hds : List.Forall₂ (DefR κ k) ds ds') (h : ScEl κ k E el) :
    ExR (OnOffOut.Sc κ) (onOffModel sys el q ds) (onOffModel (sys.inUnit k) el q ds') := by
  have hp : ∀ n, "__OnOff" ++ "_" ++ n ∈ plainEndings → κ (el ++ "__OnOff" ++ "_" ++ n) = 1 := fun n hn => h.p3 hn
  have hk := hu.pos
  unfold onOffModel
  dsimp only
  have hd2 : List.Forall₂ (DefR κ k) (ds.map fun d : Var × Num × Num => (d.1, d.2.1.map (max sys.cfg.eps), d.2.2)) (ds'.map fun d : Var × Num × Num => (d.1, d.2.1.map (max (sys.inUnit k).cfg.eps), d.2.2)) := by
    rw [List.forall₂_map_left_iff, List.forall₂_map_right_iff]
    refine hds.imp fun d d' hd => ⟨hd.1, ?_⟩
    rw [hd.2]
    dsimp only
    rw [num_map_map, num_map_map]
    exact congrArg₂ _ (num_map_congr (fun x => (mul_max_of_nonneg _ _ hk.le).symm) _) rfl
  revert hd2
  generalize (ds.map fun d : Var × Num × Num => (d.1, d.2.1.map (max sys.cfg.eps), d.2.2)) = ds
  generalize (ds'.map fun d : Var × Num × Num => (d.1, d.2.1.map (max (sys.inUnit k).cfg.eps), d.2.2)) = ds'
  intro hd2
  have e2 : previousOnValues (sys.inUnit k).cfg.eps (ds'.map (·.1)) = previousOnValues sys.cfg.eps (ds.map (·.1)) := by
    refine previousOn_sc (κ := κ) hk _ ?_
    rw [List.forall₂_map_left_iff, List.forall₂_map_right_iff]
    exact hd2.imp fun _ _ k => k.1
  rw [e2]
  refine ExR.bind (R := fun a b => b = a ∧ ∀ x ∈ a, x = 0 ∨ x = 1) (exR_self fun a ha => ⟨rfl, previousOn_bin ha⟩) fun pv _ e => ?_
  obtain ⟨rfl, hbin⟩ := e
  refine ExR.bind (R := fun v v' => v' = v ∧ κ v.label = 1 ∧ ∀ bs, v.previous = some (.v bs) → ∀ x ∈ bs, x = 0 ∨ x = 1)
    (exR_self fun a ha => ⟨rfl, mkVar_u (hp "on" (by decide +kernel)) ha, fun bs hbs => by
      rw [(mkVar_ok ha).1] at hbs
      dsimp only at hbs
      split at hbs
      · cases hbs; exact hbin
      · cases hbs⟩) fun on _ e => ?_
  obtain ⟨rfl, hon, honp⟩ := e
  refine ExR.bind (R := fun v v' => v' = v ∧ κ v.label = 1) (exR_self fun a ha => ⟨rfl, mkVar_u (hp "totalOnHours" (by decide +kernel)) ha⟩) fun tot _ e => ?_
  obtain ⟨rfl, htot⟩ := e
  refine ExR.bind (onConstraints_sc hk hon hd2) fun c1 c1' hc1 => ?_
  refine ExR.bind (R := fun x y => PartS κ x y ∧ ∀ a, x = some a → ∀ bs, a.1.previous = some (.v bs) → ∀ x ∈ bs, x = 0 ∨ x = 1) ?_ fun off off' hoff => ?_
  · unfold offOpt
    split
    · refine ExR.map (R := fun x y => y = x ∧ (κ x.1.label = 1 ∧ ∀ c ∈ x.2, c.Unit1 κ) ∧ ∀ bs, x.1.previous = some (.v bs) → ∀ x ∈ bs, x = 0 ∨ x = 1) ?_
        (fun a b hab => ⟨⟨by rw [hab.1], fun c hc => by cases hc; exact hab.2.1⟩, fun c hc => by cases hc; exact hab.2.2⟩)
      unfold offPart
      refine ExR.bind (R := fun v v' => v' = v ∧ κ v.label = 1 ∧ ∀ bs, v.previous = some (.v bs) → ∀ x ∈ bs, x = 0 ∨ x = 1)
        (exR_self fun a ha => ⟨rfl, mkVar_u (hp "off" (by decide +kernel)) ha, fun bs hbs => by
          rw [(mkVar_ok ha).1] at hbs
          dsimp only at hbs
          split at hbs
          · cases hbs
            intro x hx
            obtain ⟨y, hy, rfl⟩ := List.mem_map.1 hx
            rcases hbin y hy with rfl | rfl <;> simp
          · cases hbs⟩) fun off _ e => ?_
      obtain ⟨rfl, ho, hop⟩ := e
      refine .ok ⟨rfl, ⟨ho, fun c hc => ?_⟩, hop⟩
      rw [List.mem_singleton] at hc
      subst hc
      simp [ConReq.Unit1, mkEq, sIdx, Op.Unit1, ho, hon]
    · exact .ok ⟨⟨rfl, by simp⟩, by simp⟩
  obtain ⟨hoff, hoffp⟩ := hoff
  have dur : ∀ {n : String} {b : Var} {mi ma : Option Num}, κ (el ++ "__OnOff" ++ "_" ++ n) = 1 → κ b.label = 1 → (∀ bs, b.previous = some (.v bs) → ∀ x ∈ bs, x = 0 ∨ x = 1) →
      ExR (PartS κ) (some <$> getDuration sys (el ++ "__OnOff") n b mi ma) (some <$> getDuration (sys.inUnit k) (el ++ "__OnOff") n b mi ma) := by
    intro n b mi ma h1 h2 h3
    exact ExR.map (getDuration_sc hu h1 h2 h3 mi ma) fun a b hab => ⟨by rw [hab.1], fun c hc => by cases hc; exact hab.2⟩
  refine ExR.bind (R := PartS κ) ?_ fun d1 d1' hd1 => ?_
  · unfold durationOnOpt
    split
    · exact dur (hp "consecutiveOnHours" (by decide +kernel)) hon honp
    · exact .ok ⟨rfl, by simp⟩
  refine ExR.bind (R := PartS κ) ?_ fun d2 d2' hd2 => ?_
  · unfold durationOffOpt
    split
    · obtain ⟨rfl, ho⟩ := hoff
      cases off' with
      | none => exact .error _
      | some a => exact dur (hp "consecutiveOffHours" (by decide +kernel)) (ho a rfl).1 (hoffp a rfl)
    · exact .ok ⟨rfl, by simp⟩
  refine ExR.bind (R := SwS κ) ?_ fun sw sw' hsw => ?_
  · unfold switchOpt
    split
    · refine ExR.map (R := fun x y => y = x ∧ κ x.1.label = 1 ∧ κ x.2.1.label = 1 ∧ κ x.2.2.1.label = 1 ∧ ∀ c ∈ x.2.2.2, c.Unit1 κ) ?_
        (fun a b hab => ⟨by rw [hab.1], fun c hc => by cases hc; exact hab.2⟩)
      unfold switchPart
      refine ExR.bind (R := fun v v' => v' = v ∧ κ v.label = 1) (exR_self fun a ha => ⟨rfl, mkVar_u (hp "switchOn" (by decide +kernel)) ha⟩) fun a _ e => ?_
      obtain ⟨rfl, ha⟩ := e
      refine ExR.bind (R := fun v v' => v' = v ∧ κ v.label = 1) (exR_self fun a ha => ⟨rfl, mkVar_u (hp "switchOff" (by decide +kernel)) ha⟩) fun b _ e => ?_
      obtain ⟨rfl, hb⟩ := e
      refine ExR.bind (R := fun v v' => v' = v ∧ κ v.label = 1) (exR_self fun a ha => ⟨rfl, mkVar_u (hp "nrSwitchOn" (by decide +kernel)) ha⟩) fun c _ e => ?_
      obtain ⟨rfl, hc⟩ := e
      refine ExR.bind (R := fun x y => y = x ∧ ∀ c ∈ x, c.Unit1 κ) (exR_self (x := switchConstraints sys _ _ _ _ _) fun cs hcs => ⟨rfl, switch_plain hcs hon ha hb hc⟩) fun cs _ e => ?_
      obtain ⟨rfl, hcs⟩ := e
      exact .ok ⟨rfl, ha, hb, hc, hcs⟩
    · exact .ok ⟨rfl, by simp⟩
  refine ExR.bind sharesTo_any fun _ _ _ => ExR.bind (sharesTo_any (f := .v sys.dt)) fun _ _ _ => .ok ⟨rfl, hon, ?_, ?_, ?_⟩
  · dsimp only
    rw [hoff.1, hd1.1, hd2.1, hsw.1]
  · dsimp only
    intro v hv
    simp only [List.mem_append] at hv
    rcases hv with (((hv | hv) | hv) | hv) | hv
    · simp only [List.mem_cons, List.not_mem_nil, or_false] at hv
      rcases hv with rfl | rfl
      · exact hon
      · exact htot
    · exact hoff.facs v hv
    · exact hd1.facs v hv
    · exact hd2.facs v hv
    · obtain ⟨rfl, hs⟩ := hsw
      cases sw' with
      | none => cases hv
      | some a =>
        obtain ⟨s1, s2, s3, _⟩ := hs a rfl
        simp only [List.mem_cons, List.not_mem_nil, or_false] at hv
        rcases hv with rfl | rfl | rfl <;> assumption
  · refine List.rel_append (List.rel_append (List.rel_append (List.rel_append (List.rel_append (.cons (ConReq.Unit1.sc ?_) .nil) hc1) hoff.cons) hd1.cons) hd2.cons) ?_
    · simp [ConReq.Unit1, mkEq, sSum, sAll, Op.Unit1, hon, htot]
    · obtain ⟨rfl, hs⟩ := hsw
      cases sw' with
      | none => exact .nil
      | some a => exact plain_cons (hs a rfl).2.2.2

end Flix
