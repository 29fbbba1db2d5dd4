import Verif.Spec.Rename
import Verif.Lemmas.OnOff

/-!
# Models under other names

Two computations agree up to names: `ExR R a b` if both raise the same exception or both succeed with related results.
-/

namespace Flix

inductive ExR {α β : Type} (R : α → β → Prop) : Except Err α → Except Err β → Prop
  | ok {a b} (h : R a b) : ExR R (.ok a) (.ok b)
  | error (e) : ExR R (.error e) (.error e)

namespace ExR

variable {α β γ δ : Type} {R : α → β → Prop} {S : γ → δ → Prop}

theorem bind {x : Except Err α} {y : Except Err β} {f : α → Except Err γ} {g : β → Except Err δ} (h : ExR R x y) (hf : ∀ a b, R a b → ExR S (f a) (g b)) :
    ExR S (x >>= f) (y >>= g) := by
  cases h with
  | ok h => exact hf _ _ h
  | error e => exact .error e

theorem map {x : Except Err α} {y : Except Err β} {f : α → γ} {g : β → δ} (h : ExR R x y) (hf : ∀ a b, R a b → S (f a) (g b)) :
    ExR S (f <$> x) (g <$> y) := by
  cases h with
  | ok h => exact .ok (hf _ _ h)
  | error e => exact .error e

theorem imp {R' : α → β → Prop} {x : Except Err α} {y : Except Err β} (h : ExR R x y) (hf : ∀ a b, R a b → R' a b) : ExR R' x y := by
  cases h with
  | ok h => exact .ok (hf _ _ h)
  | error e => exact .error e

theorem refl {R : α → α → Prop} (hR : ∀ a, R a a) (x : Except Err α) : ExR R x x := by
  cases x with
  | ok a => exact .ok (hR a)
  | error e => exact .error e

theorem mapM {ι κ : Type} {Q : ι → κ → Prop} {f : ι → Except Err α} {g : κ → Except Err β} {l : List ι} {m : List κ} (h : List.Forall₂ Q l m)
    (hf : ∀ a b, a ∈ l → Q a b → ExR R (f a) (g b)) : ExR (List.Forall₂ R) (l.mapM f) (m.mapM g) := by
  induction h with
  | nil => exact .ok .nil
  | cons hh ht ih =>
    rw [List.mapM_cons, List.mapM_cons]
    refine bind (hf _ _ (by simp) hh) fun a b hab => bind (ih fun x y hx => hf x y (by simp [hx])) fun as bs hs => .ok (.cons hab hs)

theorem inv {x : Except Err α} {a : α} {y : Except Err β} (h : ExR R x y) (hx : x = .ok a) : ∃ b, y = .ok b ∧ R a b := by
  cases h with
  | ok h => cases hx; exact ⟨_, rfl, h⟩
  | error e => cases hx

end ExR

theorem forall₂_map_right {α β : Type} {R : α → β → Prop} {f : α → β} {l : List α} (h : ∀ a ∈ l, R a (f a)) : List.Forall₂ R l (l.map f) := by
  induction l with
  | nil => exact .nil
  | cons a l ih => exact .cons (h a (by simp)) (ih fun x hx => h x (by simp [hx]))

theorem forall₂_rn_map {α β : Type} {f : α → β} {l : List α} {m : List β} (h : List.Forall₂ (fun a b => b = f a) l m) : m = l.map f := by
  induction h with
  | nil => rfl
  | cons hh _ ih => rw [List.map_cons, hh, ih]

/-! ## Variables, calls, constraints, trees -/

variable (L : String → String)

def Var.rn (x : Var) : Var := { x with label := L x.label }

def Op.rn : Op → Op
  | .summand x f i a => .summand (x.rn L) f i a
  | .const k => .const k

def Summand.rn (sm : Summand) : Summand := { sm with var := sm.var.rn L }

/-- The constraint `r'` is `r` with other variables; its own label does not matter. -/
def ConReq.Like (r r' : ConReq) : Prop := r'.kind = r.kind ∧ r'.ops = r.ops.map (Op.rn L)

mutual
  def MTree.Like : MTree → MTree → Prop
    | .node vs cs ss, .node vs' cs' ss' => vs' = vs.map (Var.rn L) ∧ List.Forall₂ (ConReq.Like L) cs cs' ∧ MTree.LikeAll ss ss'
  def MTree.LikeAll : List MTree → List MTree → Prop
    | [], [] => True
    | t :: ts, t' :: ts' => MTree.Like t t' ∧ MTree.LikeAll ts ts'
    | [], _ :: _ => False
    | _ :: _, [] => False
end

variable {L}

theorem likeAll_iff {ts ts' : List MTree} : MTree.LikeAll L ts ts' ↔ List.Forall₂ (MTree.Like L) ts ts' := by
  induction ts generalizing ts' with
  | nil => cases ts' <;> simp [MTree.LikeAll]
  | cons t ts ih => cases ts' <;> simp [MTree.LikeAll, ih]

theorem like_node {vs vs' : List Var} {cs cs' : List ConReq} {ss ss' : List MTree} (h1 : vs' = vs.map (Var.rn L)) (h2 : List.Forall₂ (ConReq.Like L) cs cs')
    (h3 : List.Forall₂ (MTree.Like L) ss ss') : MTree.Like L (.node vs cs ss) (.node vs' cs' ss') := by
  rw [MTree.Like]
  exact ⟨h1, h2, likeAll_iff.2 h3⟩

/-! ## Solutions -/

theorem var_ok_rn {σ : Assignment} {x : Var} : (x.rn L).Ok σ ↔ x.Ok fun l => σ (L l) := Iff.rfl

theorem mkSummand_rn (x : Var) (f : Num) (i : Option (List Nat)) (a : Bool) : mkSummand (x.rn L) f i a = (mkSummand x f i a).map (Summand.rn L) := by
  unfold mkSummand
  dsimp only [Var.rn]
  cases checkLength f (i.getD (List.range x.length)) with
  | error e => rfl
  | ok n =>
    simp only [ok_bind]
    cases asVector f n with
    | error e => rfl
    | ok v => rfl

/-- The renamed constraint. -/
def Constraint.rn (L : String → String) (l' : String) (c : Constraint) : Constraint := { c with label := l', summands := c.summands.map (Summand.rn L) }

theorem run_rn (l' : String) (c : Constraint) (op : Op) : (op.rn L).run (c.rn L l') = (op.run c).map (Constraint.rn L l') := by
  cases op with
  | summand x f i a =>
    show Constraint.addSummand _ _ f i a = (c.addSummand x f i a).map _
    unfold Constraint.addSummand
    rw [mkSummand_rn]
    cases mkSummand x f i a with
    | error e => rfl
    | ok sm =>
      simp only [Except.map, ok_bind]
      show (updateLength c.length sm.length >>= _) = _
      cases updateLength c.length sm.length with
      | error e => rfl
      | ok n => simp [Except.map, Constraint.rn, ok_bind, pure, Except.pure]
  | const k =>
    show Constraint.addConstant _ k = (c.addConstant k).map _
    unfold Constraint.addConstant Constraint.addConstantFull
    dsimp only [Constraint.rn]
    cases Num.add c.constant k with
    | error e => rfl
    | ok k' =>
      dsimp only
      cases updateLength c.length k'.len with
      | error e => rfl
      | ok n => rfl

theorem runOps_rn (l' : String) (ops : List Op) (c : Constraint) : runOps (c.rn L l') (ops.map (Op.rn L)) = (runOps c ops).map (Constraint.rn L l') := by
  induction ops generalizing c with
  | nil => rfl
  | cons op ops ih =>
    rw [List.map_cons, runOps, runOps, run_rn]
    cases op.run c with
    | error e => rfl
    | ok c' => exact ih c'

/-- The renamed row. -/
def Row.rn (L : String → String) (r : Row) : Row := { r with terms := r.terms.map fun t => (t.1, L t.2.1, t.2.2) }

theorem holds_rn {σ : Assignment} {r : Row} : (r.rn L).Holds σ ↔ r.Holds fun l => σ (L l) := by
  unfold Row.Holds Row.rn termsVal
  simp only [List.map_map]
  rfl

theorem mapM_map_ok {α β γ : Type} {f : α → Except Err β} {g : β → γ} (l : List α) : l.mapM (fun a => (f a).map g) = (l.mapM f).map (List.map g) := by
  induction l with
  | nil => rfl
  | cons a l ih =>
    rw [List.mapM_cons, List.mapM_cons, ih]
    cases f a with
    | error e => rfl
    | ok b =>
      cases l.mapM f with
      | error e => rfl
      | ok bs => rfl

theorem pyTerm_rn (x : Var) (i : Nat) (f : ℚ) : pyTerm (x.rn L) i f = (pyTerm x i f).map fun t => (t.1, L t.2.1, t.2.2) := by
  unfold pyTerm
  show (if i < x.length then _ else _) = _
  split <;> rfl

theorem expr_rn (sm : Summand) (t : Nat) : (sm.rn L).expr t = (sm.expr t).map (List.map fun t => (t.1, L t.2.1, t.2.2)) := by
  have one : ∀ (a b : Nat), (do let i ← pyGet sm.indices a; let f ← pyGet sm.factorVec b; let t ← pyTerm (sm.var.rn L) i f; return [t] : Except Err (List (ℚ × String × Nat))) =
      (do let i ← pyGet sm.indices a; let f ← pyGet sm.factorVec b; let t ← pyTerm sm.var i f; return [t] : Except Err (List (ℚ × String × Nat))).map
        (List.map fun t => (t.1, L t.2.1, t.2.2)) := by
    intro a b
    cases pyGet sm.indices a with
    | error e => rfl
    | ok i =>
      simp only [ok_bind]
      cases pyGet sm.factorVec b with
      | error e => rfl
      | ok f =>
        simp only [ok_bind]
        rw [pyTerm_rn]
        cases pyTerm sm.var i f <;> rfl
  obtain ⟨x, fv, idx, len, a⟩ := sm
  unfold Summand.expr Summand.rn
  simp only at one ⊢
  cases a
  · simp only [Bool.false_eq_true, if_false]
    by_cases h1 : len = 1
    · simp only [h1, if_true]
      exact one 0 0
    · simp only [h1, if_false]
      by_cases h2 : idx.length = 1
      · simp only [h2, if_true]
        exact one 0 t
      · simp only [h2, if_false]
        exact one t t
  · simp only [if_true]
    rw [← mapM_map_ok]
    congr 1
    funext j
    cases pyGet idx j with
    | error e => rfl
    | ok i =>
      simp only [ok_bind]
      cases pyGet fv j with
      | error e => rfl
      | ok f => exact pyTerm_rn _ _ _

theorem translate_rn (l' : String) (c : Constraint) : (c.rn L l').translate = c.translate.map (List.map (Row.rn L)) := by
  unfold Constraint.translate
  dsimp only [Constraint.rn]
  cases asVector c.constant c.length with
  | error e => rfl
  | ok cv =>
    simp only [ok_bind]
    rw [← mapM_map_ok]
    congr 1
    funext i
    have : (c.summands.map (Summand.rn L)).mapM (fun sm : Summand => sm.expr i) = (c.summands.mapM fun sm : Summand => sm.expr i).map (List.map (List.map fun t => (t.1, L t.2.1, t.2.2))) := by
      rw [List.mapM_map, ← mapM_map_ok]
      congr 1
      funext sm
      exact expr_rn sm i
    rw [this]
    cases c.summands.mapM (fun sm => sm.expr i) with
    | error e => rfl
    | ok tss =>
      simp only [Except.map, ok_bind]
      cases pyGet cv i with
      | error e => rfl
      | ok r => simp [Except.map, ok_bind, pure, Except.pure, Row.rn, List.map_flatten]

theorem con_ok_like {σ : Assignment} {r r' : ConReq} (h : r.Like L r') : r'.Ok σ ↔ r.Ok fun l => σ (L l) := by
  obtain ⟨h1, h2⟩ := h
  have hb : r'.build = r.build.map (Constraint.rn L r'.label) := by
    unfold ConReq.build
    rw [h1, h2]
    exact runOps_rn r'.label r.ops { label := r.label, kind := r.kind }
  unfold ConReq.Ok
  rw [hb]
  cases hbr : r.build with
  | error e => simp [Except.map]
  | ok c =>
    simp only [Except.map, Except.ok.injEq, exists_eq_left', exists_and_left]
    rw [translate_rn]
    cases c.translate with
    | error e => simp [Except.map]
    | ok rows => simp [Except.map, holds_rn]

mutual
theorem solves_like {σ : Assignment} : ∀ {t t' : MTree}, t.Like L t' → (t'.Solves σ ↔ t.Solves fun l => σ (L l))
  | .node vs cs ss, .node vs' cs' ss', h => by
    rw [MTree.Like] at h
    obtain ⟨rfl, h2, h3⟩ := h
    rw [MTree.Solves, MTree.Solves, solvesAll_like h3]
    refine and_congr ?_ (and_congr ?_ Iff.rfl)
    · simp [var_ok_rn]
    · clear h3
      induction h2 with
      | nil => simp
      | cons hh _ ih => simp [con_ok_like hh, ih]
theorem solvesAll_like {σ : Assignment} : ∀ {t t' : List MTree}, MTree.LikeAll L t t' → (MTree.SolvesAll σ t' ↔ MTree.SolvesAll (fun l => σ (L l)) t)
  | [], [], _ => by simp [MTree.SolvesAll]
  | t :: ts, t' :: ts', h => by
    rw [MTree.LikeAll] at h
    rw [MTree.SolvesAll, MTree.SolvesAll, solves_like h.1, solvesAll_like h.2]
  | [], _ :: _, h => by simp [MTree.LikeAll] at h
  | _ :: _, [], h => by simp [MTree.LikeAll] at h
end

end Flix
