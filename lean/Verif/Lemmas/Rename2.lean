import Verif.Lemmas.Rename
import Verif.Lemmas.Names

namespace Flix

/-- `L` sends the labels of the variables of the element `el` to those of `el'`; `E` are the effects named in segments, `ε` renames effects. -/
structure To (L ε : String → String) (E : String → Prop) (el el' : String) : Prop where
  plain : ∀ s ∈ plainVarSufs, L (el ++ s) = el' ++ s
  seg : ∀ e, E e → L (el ++ "__" ++ "SegmentedShares" ++ "_" ++ (e ++ "_segmented")) = el' ++ "__" ++ "SegmentedShares" ++ "_" ++ (ε e ++ "_segmented")
  segm : ∀ i : Nat, ∀ s ∈ ["inSegment", "lambda0", "lambda1"], L (el ++ "__" ++ "Segment_" ++ toString i ++ "_" ++ s) = el' ++ "__" ++ "Segment_" ++ toString i ++ "_" ++ s

variable {L ε : String → String} {E : String → Prop} {el el' : String}

theorem To.var2 (h : To L ε E el el') {n : String} (hn : "_" ++ n ∈ plainVarSufs) : L (el ++ "_" ++ n) = el' ++ "_" ++ n := by
  rw [String.append_assoc, String.append_assoc]; exact h.plain _ hn

theorem To.var3 (h : To L ε E el el') {p n : String} (hn : p ++ "_" ++ n ∈ plainVarSufs) : L (el ++ p ++ "_" ++ n) = el' ++ p ++ "_" ++ n := by
  have := h.plain _ hn
  simpa only [String.append_assoc] using this

theorem To.var4 (h : To L ε E el el') {q p n : String} (hn : q ++ p ++ "_" ++ n ∈ plainVarSufs) : L (el ++ q ++ p ++ "_" ++ n) = el' ++ q ++ p ++ "_" ++ n := by
  have := h.plain _ hn
  simpa only [String.append_assoc] using this

/-- The variable under its new name. -/
abbrev VarR (L : String → String) : Var → Var → Prop := fun v v' => v' = v.rn L

abbrev ConsR (L : String → String) : List ConReq → List ConReq → Prop := List.Forall₂ (ConReq.Like L)

theorem checked_rn (x : Var) : ExR (VarR L) x.checked (x.rn L).checked := by
  obtain ⟨l, n, b, fv, lo, hi, pr⟩ := x
  unfold Var.checked Var.rn
  cases fv with
  | none => exact .ok rfl
  | some fv =>
    dsimp only
    refine ExR.bind (ExR.refl (R := Eq) (fun _ => rfl) _) fun a b e => ?_
    subst e
    refine ExR.bind (ExR.refl (R := Eq) (fun _ => rfl) _) fun a' b' e => ?_
    subst e
    split
    · exact .ok rfl
    · exact .error _

theorem mkVar_rn {p n p' n' : String} (h : L (p ++ "_" ++ n) = p' ++ "_" ++ n') (len : Nat) (b : Bool) (fv lb ub pr : Option Num) :
    ExR (VarR L) (mkVar p n len b fv lb ub pr) (mkVar p' n' len b fv lb ub pr) := by
  unfold mkVar
  by_cases hl : len > 1
  · rw [if_pos hl, if_pos hl]
    unfold Var.checkedTS
    by_cases hl : len > 1
    · simp only [hl, if_true]
      have := checked_rn (L := L) { label := p ++ "_" ++ n, length := len, isBinary := b, fixedValue := fv, lb, ub, previous := pr }
      unfold Var.rn at this
      rwa [h] at this
    · simp only [hl, if_false]
      exact .error _
  · rw [if_neg hl, if_neg hl]
    have := checked_rn (L := L) { label := p ++ "_" ++ n, length := len, isBinary := b, fixedValue := fv, lb, ub, previous := none }
    unfold Var.rn at this
    rwa [h] at this

theorem like_eq {p n p' n' : String} {ops ops' : List Op} (h : ops' = ops.map (Op.rn L)) : (mkEq p n ops).Like L (mkEq p' n' ops') := ⟨rfl, h⟩
theorem like_ineq {p n p' n' : String} {ops ops' : List Op} (h : ops' = ops.map (Op.rn L)) : (mkIneq p n ops).Like L (mkIneq p' n' ops') := ⟨rfl, h⟩

theorem sharesTo_rn {t : Target} {e e' n n' : String} {d : EffDict} {f : Num} {v v' : Option Var} :
    ExR (fun _ _ => True) (sharesTo t e n d f v) (sharesTo t e' n' (EffDict.rename ε d) f v') := by
  unfold sharesTo EffDict.rename
  refine (ExR.mapM (Q := fun a b => b = (Option.map ε a.1, a.2)) (R := fun _ _ => True) (forall₂_map_right fun a _ => rfl) ?_).imp fun _ _ _ => trivial
  rintro a b _ rfl
  refine ExR.bind (ExR.refl (R := fun _ _ => True) (fun _ => trivial) _) fun a b _ => .ok trivial

/-! ## On/off models -/

theorem minDuration_rn {sys : Sys} {p p' lp lp' : String} {dur b : Var} {prev : ℚ} (m : Option Num) :
    ExR (ConsR L) (minDurationCons sys p lp dur b prev m) (minDurationCons sys p' lp' (dur.rn L) (b.rn L) prev m) := by
  cases m with
  | none => exact .ok .nil
  | some m =>
    unfold minDurationCons
    dsimp only
    refine ExR.bind (ExR.refl (R := Eq) (fun _ => rfl) _) fun a b' e => ?_
    subst e
    refine .ok (.cons (like_ineq rfl) ?_)
    split
    · exact .cons (like_eq rfl) .nil
    · exact .nil

theorem getDuration_rn {sys : Sys} {p p' n : String} {b : Var} (h : L (p ++ "_" ++ n) = p' ++ "_" ++ n) (mi ma : Option Num) :
    ExR (fun x y => y.1 = x.1.rn L ∧ ConsR L x.2 y.2) (getDuration sys p n b mi ma) (getDuration sys p' n (b.rn L) mi ma) := by
  unfold getDuration
  refine ExR.bind (R := Eq) (ExR.refl (fun _ => rfl) (prevDuration sys b)) fun x y e => ?_
  subst e
  refine ExR.bind (mkVar_rn h _ _ _ _ _ _) fun d d' e => ?_
  subst e
  dsimp only
  refine ExR.bind (ExR.refl (R := Eq) (fun _ => rfl) _) fun x y e => ?_
  subst e
  refine ExR.bind (minDuration_rn mi) fun c c' hc => .ok ⟨rfl, ?_⟩
  refine List.rel_append (List.rel_append ?_ hc) (.cons (like_eq rfl) .nil)
  exact .cons (like_ineq rfl) (.cons (like_ineq rfl) (.cons (like_ineq rfl) .nil))

theorem defining_map (ds : List (Var × Num × Num)) (f : Var × Num × Num → Num) (idx : List Nat) :
    (ds.map fun d => (d.1.rn L, d.2)).map (fun d => sIdx d.1 (f (d.1, d.2)) idx) = (ds.map fun d => sIdx d.1 (f (d.1.rn L, d.2)) idx).map (Op.rn L) := by
  simp [Op.rn, sIdx]

theorem onConstraints_rn {sys : Sys} {p p' : String} {on : Var} (ds : List (Var × Num × Num)) :
    ExR (ConsR L) (onConstraints sys p on ds) (onConstraints sys p' (on.rn L) (ds.map fun d => (d.1.rn L, d.2))) := by
  match ds with
  | [] => exact .error _
  | [(x, lb, ub)] => exact .ok (.cons (like_ineq rfl) (.cons (like_ineq rfl) .nil))
  | a :: b :: ds =>
    unfold onConstraints
    rw [List.map_cons, List.map_cons]
    dsimp only
    have e : (List.foldlM (fun a (d : Var × Num × Num) => Num.add a d.2.2) (.s 0) ((a.1.rn L, a.2) :: (b.1.rn L, b.2) :: ds.map fun d => (d.1.rn L, d.2)) : Except Err Num) =
        List.foldlM (fun a (d : Var × Num × Num) => Num.add a d.2.2) (.s 0) (a :: b :: ds) := by
      rw [show ((a.1.rn L, a.2) :: (b.1.rn L, b.2) :: ds.map fun d => (d.1.rn L, d.2)) = (a :: b :: ds).map (fun d : Var × Num × Num => (d.1.rn L, d.2)) from rfl, List.foldlM_map]
    rw [e]
    refine ExR.bind (ExR.refl (R := Eq) (fun _ => rfl) _) fun x y e => ?_
    subst e
    refine .ok (.cons (like_ineq ?_) (.cons (like_ineq ?_) .nil))
    · simp [Op.rn, sIdx]
    · simp [Op.rn, sIdx]

theorem switchConstraints_rn {sys : Sys} {p p' : String} {on a b c : Var} :
    ExR (ConsR L) (switchConstraints sys p on a b c) (switchConstraints sys p' (on.rn L) (a.rn L) (b.rn L) (c.rn L)) := by
  unfold switchConstraints
  refine ExR.bind (R := Eq) (ExR.refl (fun _ => rfl) (lastPrevious on)) fun x y e => ?_
  subst e
  exact .ok (.cons (like_eq rfl) (.cons (like_eq rfl) (.cons (like_ineq rfl) (.cons (like_eq rfl) .nil))))

structure OnOffOut.Like (L : String → String) (o o' : OnOffOut) : Prop where
  on : o'.on = o.on.rn L
  vars : o'.vars = o.vars.map (Var.rn L)
  cons : ConsR L o.cons o'.cons

theorem OnOffOut.Like.tree {o o' : OnOffOut} (h : o.Like L o') : o.tree.Like L o'.tree := like_node h.vars h.cons .nil

abbrev PartR (L : String → String) : Option (Var × List ConReq) → Option (Var × List ConReq) → Prop := Option.Rel fun x y => y.1 = x.1.rn L ∧ ConsR L x.2 y.2

abbrev SwR (L : String → String) : Option (Var × Var × Var × List ConReq) → Option (Var × Var × Var × List ConReq) → Prop :=
  Option.Rel fun x y => y.1 = x.1.rn L ∧ y.2.1 = x.2.1.rn L ∧ y.2.2.1 = x.2.2.1.rn L ∧ ConsR L x.2.2.2 y.2.2.2

theorem PartR.vars {x y : Option (Var × List ConReq)} (h : PartR L x y) : (y.map (·.1)).toList = (x.map (·.1)).toList.map (Var.rn L) := by
  cases h with
  | none => rfl
  | some h => simp [h.1]

theorem PartR.cons {x y : Option (Var × List ConReq)} (h : PartR L x y) : ConsR L ((x.map (·.2)).getD []) ((y.map (·.2)).getD []) := by
  cases h with
  | none => exact .nil
  | some h => exact h.2

theorem onOff_rn {sys : Sys} (q : OnOffParams) (ds : List (Var × Num × Num)) (h : To L ε E el el') :
    ExR (OnOffOut.Like L) (onOffModel sys el q ds) (onOffModel sys el' (q.rename ε) (ds.map fun d => (d.1.rn L, d.2))) := by
  have hp : ∀ n, "__OnOff" ++ "_" ++ n ∈ plainVarSufs → L (el ++ "__OnOff" ++ "_" ++ n) = el' ++ "__OnOff" ++ "_" ++ n := fun n hn => h.var3 hn
  unfold onOffModel
  dsimp only
  have e1 : ((ds.map fun d => (d.1.rn L, d.2)).map fun d : Var × Num × Num => (d.1, d.2.1.map (max sys.cfg.eps), d.2.2)) =
      (ds.map fun d : Var × Num × Num => (d.1, d.2.1.map (max sys.cfg.eps), d.2.2)).map fun d => (d.1.rn L, d.2) := by simp
  rw [e1]
  generalize (ds.map fun d : Var × Num × Num => (d.1, d.2.1.map (max sys.cfg.eps), d.2.2)) = ds
  have e2 : previousOnValues sys.cfg.eps ((ds.map fun d => (d.1.rn L, d.2)).map (·.1)) = previousOnValues sys.cfg.eps (ds.map (·.1)) := by
    unfold previousOnValues
    rw [List.map_map, List.mapM_map, List.mapM_map]
    rfl
  rw [e2]
  refine ExR.bind (ExR.refl (R := Eq) (fun _ => rfl) _) fun pv _ e => ?_
  subst e
  refine ExR.bind (mkVar_rn (hp "on" (by decide +kernel)) _ _ _ _ _ _) fun on _ e => ?_
  subst e
  refine ExR.bind (mkVar_rn (hp "totalOnHours" (by decide +kernel)) _ _ _ _ _ _) fun tot _ e => ?_
  subst e
  refine ExR.bind (onConstraints_rn ds) fun c1 c1' hc1 => ?_
  refine ExR.bind (R := PartR L) ?_ fun off off' hoff => ?_
  · show ExR _ (offOpt _ _ q _ _) _
    unfold offOpt
    show ExR _ _ (if q.useOff then _ else _)
    split
    · refine ExR.map (R := fun x y => y.1 = x.1.rn L ∧ ConsR L x.2 y.2) ?_ fun a b hab => .some hab
      unfold offPart
      refine ExR.bind (mkVar_rn (hp "off" (by decide +kernel)) _ _ _ _ _ _) fun off _ e => ?_
      subst e
      exact .ok ⟨rfl, .cons (like_eq rfl) .nil⟩
    · exact .ok .none
  refine ExR.bind (R := PartR L) ?_ fun d1 d1' hd1 => ?_
  · unfold durationOnOpt
    show ExR _ _ (if q.useConsecOn then _ else _)
    split
    · exact ExR.map (getDuration_rn (hp "consecutiveOnHours" (by decide +kernel)) _ _) fun a b hab => .some hab
    · exact .ok .none
  refine ExR.bind (R := PartR L) ?_ fun d2 d2' hd2 => ?_
  · unfold durationOffOpt
    show ExR _ _ (if q.useConsecOff then _ else _)
    split
    · cases hoff with
      | none => exact .error _
      | some ho =>
        simp only [Option.map_some, ho.1]
        exact ExR.map (getDuration_rn (hp "consecutiveOffHours" (by decide +kernel)) _ _) fun a b hab => .some hab
    · exact .ok .none
  refine ExR.bind (R := SwR L) ?_ fun sw sw' hsw => ?_
  · unfold switchOpt
    show ExR _ _ (if q.useSwitchOn then _ else _)
    split
    · refine ExR.map (R := fun x y => y.1 = x.1.rn L ∧ y.2.1 = x.2.1.rn L ∧ y.2.2.1 = x.2.2.1.rn L ∧ ConsR L x.2.2.2 y.2.2.2) ?_ fun a b hab => .some hab
      unfold switchPart
      refine ExR.bind (mkVar_rn (hp "switchOn" (by decide +kernel)) _ _ _ _ _ _) fun a _ e => ?_
      subst e
      refine ExR.bind (mkVar_rn (hp "switchOff" (by decide +kernel)) _ _ _ _ _ _) fun b _ e => ?_
      subst e
      refine ExR.bind (mkVar_rn (hp "nrSwitchOn" (by decide +kernel)) _ _ _ _ _ _) fun c _ e => ?_
      subst e
      exact ExR.bind switchConstraints_rn fun cs cs' hcs => .ok ⟨rfl, rfl, rfl, hcs⟩
    · exact .ok .none
  refine ExR.bind sharesTo_rn fun _ _ _ => ExR.bind sharesTo_rn fun _ _ _ => .ok ⟨rfl, ?_, ?_⟩
  · dsimp only
    rw [hoff.vars, hd1.vars, hd2.vars]
    simp only [List.map_append, List.map_cons, List.map_nil]
    congr 1
    cases hsw with
    | none => rfl
    | some hs =>
      obtain ⟨s1, s2, s3, _⟩ := hs
      simp [s1, s2, s3]
  · refine List.rel_append (List.rel_append (List.rel_append (List.rel_append (List.rel_append (.cons (like_eq rfl) .nil) hc1) hoff.cons) hd1.cons) hd2.cons) ?_
    cases hsw with
    | none => exact .nil
    | some hs => exact hs.2.2.2

/-! ## Segments -/

abbrev SegR (L : String → String) : SegVars → SegVars → Prop := fun s s' => s' = ⟨s.inSegment.rn L, s.lambda0.rn L, s.lambda1.rn L⟩

theorem segment_rn (h : To L ε E el el') (n i : Nat) : ExR (fun a b => SegR L a.1 b.1 ∧ a.2.Like L b.2) (segmentModel el n i) (segmentModel el' n i) := by
  unfold segmentModel
  dsimp only
  refine ExR.bind (mkVar_rn (h.segm i "inSegment" (by simp)) _ _ _ _ _ _) fun a _ e => ?_
  subst e
  refine ExR.bind (mkVar_rn (h.segm i "lambda0" (by simp)) _ _ _ _ _ _) fun b _ e => ?_
  subst e
  refine ExR.bind (mkVar_rn (h.segm i "lambda1" (by simp)) _ _ _ _ _ _) fun c _ e => ?_
  subst e
  exact .ok ⟨rfl, like_node rfl (.cons (like_eq rfl) .nil) .nil⟩

inductive OutsideR (L : String → String) : Outside → Outside → Prop
  | no : OutsideR L .no .no
  | use (x : Var) : OutsideR L (.use x) (.use (x.rn L))

theorem lambdaOps_rn {s s' : List SegVars} (h : List.Forall₂ (SegR L) s s') (pts : List (Num × Num)) : lambdaOps s' pts = (lambdaOps s pts).map (Op.rn L) := by
  unfold lambdaOps
  induction h generalizing pts with
  | nil => rfl
  | cons hh _ ih =>
    cases pts with
    | nil => rfl
    | cons q pts =>
      simp only [List.zipWith_cons_cons, List.flatten_cons, List.map_append, ih pts]
      rw [hh]
      rfl

theorem multiple_rn (h : To L ε E el el') {n : Nat} (pts : List (Var × List (Num × Num))) {x x' : Outside} (hx : OutsideR L x x') :
    ExR (MTree.Like L) (multipleSegments el n pts x) (multipleSegments el' n (pts.map fun q => (q.1.rn L, q.2)) x') := by
  unfold multipleSegments
  dsimp only
  have e1 : nrOfSegments (pts.map fun q => (q.1.rn L, q.2)) = nrOfSegments pts := by cases pts <;> rfl
  rw [e1]
  refine ExR.bind (ExR.refl (R := Eq) (fun _ => rfl) _) fun nr _ e => ?_
  subst e
  refine ExR.bind (R := List.Forall₂ fun a b : Var × List (Num × Num) => b = (a.1.rn L, a.2)) (ExR.mapM (Q := fun a b => b = (a.1.rn L, a.2)) (forall₂_map_right fun _ _ => rfl) ?_) fun ps ps' hps => ?_
  · rintro a b _ rfl
    refine ExR.bind (ExR.refl (R := Eq) (fun _ => rfl) _) fun r _ e => ?_
    subst e
    exact .ok rfl
  refine ExR.bind (ExR.mapM (Q := Eq) (List.forall₂_same.2 fun _ _ => rfl) fun i j _ e => by subst e; exact segment_rn h n i) fun sg sg' hsg => ?_
  have hsv : List.Forall₂ (SegR L) (sg.map (·.1)) (sg'.map (·.1)) := by
    rw [List.forall₂_map_left_iff, List.forall₂_map_right_iff]
    exact hsg.imp fun _ _ q => q.1
  have hst : List.Forall₂ (MTree.Like L) (sg.map (·.2)) (sg'.map (·.2)) := by
    rw [List.forall₂_map_left_iff, List.forall₂_map_right_iff]
    exact hsg.imp fun _ _ q => q.2
  refine ExR.bind (R := fun a b => b.1 = a.1.map (Var.rn L) ∧ b.2 = a.2.map (Op.rn L)) ?_ fun vo vo' hvo => ?_
  · cases hx with
    | no => exact .ok ⟨rfl, rfl⟩
    | use y => exact .ok ⟨rfl, rfl⟩
  obtain ⟨vs, ops⟩ := vo
  obtain ⟨vs', ops'⟩ := vo'
  obtain ⟨rfl, rfl⟩ := hvo
  refine .ok (like_node rfl (List.rel_append ?_ (.cons (like_eq ?_) .nil)) hst)
  · rw [List.forall₂_map_left_iff, List.forall₂_map_right_iff]
    refine hps.imp fun a b q => ?_
    subst q
    refine like_eq ?_
    rw [List.map_cons, lambdaOps_rn hsv]
    rfl
  · have : ∀ {s s' : List SegVars}, List.Forall₂ (SegR L) s s' → s'.map (fun s => sAll s.inSegment (.s 1)) = (s.map fun s => sAll s.inSegment (.s 1)).map (Op.rn L) := by
      intro s s' hs
      induction hs with
      | nil => rfl
      | cons hh _ ih => rw [List.map_cons, List.map_cons, List.map_cons, ih, hh]; rfl
    rw [this hsv, List.map_append]

theorem segmentedShares_rn (h : To L ε E el el') {x : Var} {xs : List (ℚ × ℚ)} (rs : List (String × List (ℚ × ℚ))) (hE : ∀ r ∈ rs, E r.1) {y y' : Outside} (hy : OutsideR L y y') :
    ExR (fun a b => a.tree.Like L b.tree) (segmentedShares el x xs rs y) (segmentedShares el' (x.rn L) xs (rs.map fun r => (ε r.1, r.2)) y') := by
  unfold segmentedShares
  match rs, hE with
  | [], _ => exact .error _
  | (r, first) :: rs, hE =>
    rw [List.map_cons]
    dsimp only
    by_cases hl : xs.length ≠ first.length
    · rw [if_pos hl, if_pos hl]
      exact .error _
    · rw [if_neg hl, if_neg hl]
      refine ExR.bind (R := List.Forall₂ fun a b : String × Var × List (ℚ × ℚ) => b = (ε a.1, a.2.1.rn L, a.2.2))
        (ExR.mapM (Q := fun (a b : String × List (ℚ × ℚ)) => b = (ε a.1, a.2)) ?_ ?_) fun vs vs' hvs => ?_
      · exact .cons rfl (forall₂_map_right fun _ _ => rfl)
      · rintro a b ha rfl
        refine ExR.bind (mkVar_rn (h.seg a.1 (hE a ha)) _ _ _ _ _ _) fun v _ e => ?_
        subst e
        exact .ok rfl
      have hv := forall₂_rn_map hvs
      subst hv
      refine ExR.bind (R := MTree.Like L) ?_ fun t t' ht => ?_
      · have := multiple_rn h (n := 1) (vs.map (fun e => (e.2.1, e.2.2.map fun q => (Num.s q.1, Num.s q.2))) ++ [(x, xs.map fun q => (Num.s q.1, Num.s q.2))]) hy
        simpa only [List.map_append, List.map_map, List.map_cons, List.map_nil, Function.comp_def] using this
      refine ExR.bind (R := fun _ _ => True) ?_ fun _ _ _ => .ok ?_
      · refine (ExR.mapM (Q := fun a b : String × Var × List (ℚ × ℚ) => b = (ε a.1, a.2.1.rn L, a.2.2)) (R := fun _ _ => True) (forall₂_map_right fun _ _ => rfl) ?_).imp fun _ _ _ => trivial
        rintro a b _ rfl
        exact sharesTo_rn (d := [(some a.1, .s 1)])
      · refine like_node ?_ .nil (.cons ht .nil)
        simp

theorem prevent_rn (ons : List Var) : ExR (MTree.Like L) (preventSimultaneous el ons) (preventSimultaneous el' (ons.map (Var.rn L))) := by
  unfold preventSimultaneous
  rw [List.length_map, List.all_map]
  show ExR _ _ (if _ then _ else if ons.all (·.isBinary) then _ else _)
  split
  · exact .error _
  · split
    · refine .ok (like_node rfl (.cons (like_ineq ?_) .nil) .nil)
      simp [Op.rn, sAll]
    · exact .error _

/-! ## Investments -/

structure InvestOut.Like (L : String → String) (o o' : InvestOut) : Prop where
  size : o'.size = o.size.rn L
  tree : o.tree.Like L o'.tree

def InvestParams.SegIn (E : String → Prop) (q : InvestParams) : Prop := ∀ xs rs, q.effectsInSegments = some (xs, rs) → ∀ r ∈ rs, E r.1

theorem invest_rn {cfg : Cfg} (h : To L ε E el el') (q : InvestParams) (hq : q.SegIn E) (x : Var) (lo hi : Num) (pr : Option Num) (on : Option Var) :
    ExR (InvestOut.Like L) (investModel cfg el q x lo hi pr on) (investModel cfg el' (q.rename ε) (x.rn L) lo hi pr (on.map (Var.rn L))) := by
  have hp : ∀ n, "__" ++ "Investment" ++ "_" ++ n ∈ plainVarSufs → L (el ++ "__" ++ "Investment" ++ "_" ++ n) = el' ++ "__" ++ "Investment" ++ "_" ++ n := fun n hn => h.var4 hn
  unfold investModel
  dsimp only
  refine ExR.bind (R := VarR L) ?_ fun size _ e => ?_
  · unfold sizeVar
    show ExR _ _ (if pyTruthy q.fixedSize && !q.optional then _ else _)
    split
    · exact mkVar_rn (hp "size" (by decide +kernel)) _ _ _ _ _ _
    · exact mkVar_rn (hp "size" (by decide +kernel)) _ _ _ _ _ _
  subst e
  refine ExR.bind (R := Option.Rel (VarR L)) ?_ fun inv inv' hinv => ?_
  · unfold investedVar
    show ExR _ _ (if q.optional then _ else _)
    split
    · exact ExR.map (mkVar_rn (hp "isInvested" (by decide +kernel)) _ _ _ _ _ _) fun _ _ e => .some e
    · exact .ok .none
  refine ExR.bind sharesTo_rn fun _ _ _ => ?_
  refine ExR.bind (R := fun _ _ => True) ?_ fun _ _ _ => ?_
  · unfold divestShares
    show ExR _ _ (if q.optional then _ else _)
    split
    · exact ExR.bind sharesTo_rn fun _ _ _ => ExR.bind sharesTo_rn fun _ _ _ => .ok trivial
    · exact .ok trivial
  refine ExR.bind sharesTo_rn fun _ _ _ => ?_
  refine ExR.bind (R := fun a b => List.Forall₂ (MTree.Like L) a.1 b.1) ?_ fun st st' hst => ?_
  · unfold investSegments
    rw [show (q.rename ε).effectsInSegments = q.effectsInSegments.map (fun x => (x.1, x.2.map fun r => (ε r.1, r.2))) from rfl]
    cases hs : q.effectsInSegments with
    | none => exact .ok .nil
    | some y =>
      obtain ⟨xs, rs⟩ := y
      dsimp only [Option.map_some]
      refine ExR.bind (segmentedShares_rn h rs (hq xs rs hs) ?_) fun a b hab => .ok (.cons hab .nil)
      cases hinv with
      | none => exact .no
      | some e => subst e; exact .use _
  obtain ⟨st, s4⟩ := st
  obtain ⟨st', s4'⟩ := st'
  refine .ok ⟨rfl, like_node ?_ (List.rel_append ?_ ?_) hst⟩
  · cases hinv with
    | none => rfl
    | some e => subst e; rfl
  · cases hinv with
    | none => exact .nil
    | some e =>
      subst e
      show ConsR L _ (if pyTruthy q.fixedSize then _ else _)
      unfold optionalCons
      dsimp only
      split
      · exact .cons (like_eq rfl) .nil
      · exact .cons (like_ineq rfl) (.cons (like_ineq rfl) .nil)
  · unfold definingCons
    cases pr with
    | some f => exact .cons (like_eq rfl) .nil
    | none =>
      cases on with
      | none => exact .cons (like_ineq rfl) (.cons (like_ineq rfl) .nil)
      | some on => exact .cons (like_ineq rfl) (.cons (like_ineq rfl) .nil)

end Flix
