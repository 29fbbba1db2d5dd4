import Verif.Spec.Looser
import Verif.Lemmas.WindowSystem

/-! # Looser declarations keep every solution, model by model -/

namespace Flix

variable {sys : Sys} {σ : Assignment}

theorem LooserMin.keep {a b : Option ℚ} (h : LooserMin a b) {x : ℚ} (hx : ∀ m, a = some m → m ≤ x) : ∀ m, b = some m → m ≤ x := by
  intro m' hm'
  obtain ⟨m, h1, h2⟩ := h m' hm'
  exact le_trans h2 (hx m h1)

theorem LooserMax.keep {a b : Option ℚ} (h : LooserMax a b) {x : ℚ} (hx : ∀ m, a = some m → x ≤ m) : ∀ m, b = some m → x ≤ m := by
  intro m' hm'
  obtain ⟨m, h1, h2⟩ := h m' hm'
  exact le_trans (hx m h1) h2

theorem dur_looser {n : Nat} {w b d : Nat → ℚ} {prev mega : ℚ} {a₁ a₂ b₁ b₂ : Option Num} (h : DurRows n w b d prev mega a₁ a₂) (h1 : LooserMinTS n a₁ b₁)
    (h2 : LooserMaxTS n a₂ b₂) (hn : 0 < n) (hb : ∀ t < n, b t = 0 ∨ b t = 1) (hm : 0 ≤ mega) (hp : ∀ m, b₁ = some m → ∀ t < n, 0 ≤ m.at t) : DurRows n w b d prev mega b₁ b₂ := by
  refine ⟨h.nonneg, fun m' hm' t ht => ?_, fun _ t ht => ?_, h.off, h.up, h.down, fun m' hm' t ht => ?_, fun m' hm' p0 p1 => ?_, h.initial⟩
  · obtain ⟨m, e1, e2⟩ := h2 m' hm'
    exact le_trans (h.ub m e1 t ht) (e2 t ht)
  · have := h.off t ht
    rcases hb t ht with e | e <;> rw [e] at this <;> linarith
  · obtain ⟨m, e1, e2⟩ := h1 m' hm'
    have k1 := h.min m e1 t ht
    have k2 := h.nonneg t (by omega)
    have k3 := e2 t (by omega)
    have k4 := hp m' hm' t (by omega)
    rcases hb t (by omega) with e | e <;> rcases hb (t + 1) ht with e' | e' <;> rw [e, e'] at k1 ⊢ <;> linarith
  · obtain ⟨m, e1, e2⟩ := h1 m' hm'
    exact h.keep m e1 p0 (lt_of_lt_of_le p1 (e2 0 hn))

/-- Variables with wider limits that are otherwise used alike. -/
structure WiderVar (n : Nat) (d d' : Var × Num × Num) : Prop where
  label : d'.1.label = d.1.label
  length : d'.1.length = d.1.length
  previous : d'.1.previous = d.1.previous
  low : ∀ t < n, d'.2.1.at t ≤ d.2.1.at t
  high : ∀ t < n, d.2.2.at t ≤ d'.2.2.at t

theorem wider_values {n : Nat} {ds ds' : List (Var × Num × Num)} (h : List.Forall₂ (WiderVar n) ds ds') (t : Nat) :
    (ds'.map fun d => σ d.1.label t) = ds.map fun d => σ d.1.label t := by
  induction h with
  | nil => rfl
  | cons a _ ih => simp only [List.map_cons, ih, a.label]

theorem wider_sum {n : Nat} {ds ds' : List (Var × Num × Num)} (h : List.Forall₂ (WiderVar n) ds ds') {t : Nat} (ht : t < n) :
    (ds.map fun d => d.2.2.at t).sum ≤ (ds'.map fun d => d.2.2.at t).sum := by
  induction h with
  | nil => rfl
  | cons a _ ih =>
    simp only [List.map_cons, List.sum_cons]
    have := a.high t ht
    linarith

theorem wider_previous {n : Nat} {eps : ℚ} {ds ds' : List (Var × Num × Num)} (h : List.Forall₂ (WiderVar n) ds ds') :
    previousOnValues eps (ds'.map (·.1)) = previousOnValues eps (ds.map (·.1)) := by
  unfold previousOnValues
  have : (ds'.map (·.1)).mapM Var.previousValues = (ds.map (·.1)).mapM Var.previousValues := by
    induction h with
    | nil => rfl
    | cons a _ ih =>
      simp only [List.map_cons, List.mapM_cons]
      rw [ih]
      have : ∀ x y : Var, x.length = y.length → x.previous = y.previous → x.previousValues = y.previousValues := by
        intro x y e1 e2
        unfold Var.previousValues
        rw [e1, e2]
      rw [this _ _ a.length a.previous]
  rw [this]

theorem onRel_looser {n : Nat} {eps : ℚ} {on on' : Var} (hl : on'.label = on.label) {ds ds' : List (Var × Num × Num)} (h : List.Forall₂ (WiderVar n) ds ds')
    (hb : ∀ t < n, σ on.label t = 0 ∨ σ on.label t = 1) (hr : OnRel n eps σ on ds) : OnRel n eps σ on' ds' := by
  have many : (∀ t < n, eps * σ on.label t ≤ (ds.map fun d => σ d.1.label t).sum ∧
      (ds.map fun d => σ d.1.label t).sum ≤ (ds.map fun d => d.2.2.at t).sum * σ on.label t) → ∀ t < n, eps * σ on'.label t ≤ (ds'.map fun d => σ d.1.label t).sum ∧
      (ds'.map fun d => σ d.1.label t).sum ≤ (ds'.map fun d => d.2.2.at t).sum * σ on'.label t := by
    intro hr t ht
    rw [wider_values h, hl]
    refine ⟨(hr t ht).1, le_trans (hr t ht).2 ?_⟩
    refine mul_le_mul_of_nonneg_right (wider_sum h ht) ?_
    rcases hb t ht with e | e <;> rw [e] <;> norm_num
  cases h with
  | nil => exact many hr
  | cons a c =>
    cases c with
    | nil =>
      intro t ht
      obtain ⟨h1, h2⟩ := hr t ht
      rw [hl, a.label]
      have pos : 0 ≤ σ on.label t := by rcases hb t ht with e | e <;> rw [e] <;> norm_num
      exact ⟨le_trans (mul_le_mul_of_nonneg_right (max_le_max le_rfl (a.low t ht)) pos) h1, le_trans h2 (mul_le_mul_of_nonneg_right (a.high t ht) pos)⟩
    | cons b c => exact many hr

/-- Looser states keep every solution. -/
theorem onOff_looser (hv : sys.Valid) (hpd : sys.prevDt.Nonneg) {el : String} {q q' : OnOffParams} {ds ds' : List (Var × Num × Num)} {o o' : OnOffOut} (hq : q.Fits sys.n)
    (hq' : q'.Fits sys.n) (hn' : q'.NonnegLimits sys.n) (hds : ∀ d ∈ ds, d.1.length = sys.n ∧ d.2.1.Fits sys.n ∧ d.2.2.Fits sys.n)
    (hds' : ∀ d ∈ ds', d.1.length = sys.n ∧ d.2.1.Fits sys.n ∧ d.2.2.Fits sys.n) (h : onOffModel sys el q ds = .ok o) (h' : onOffModel sys el q' ds' = .ok o')
    (hl : q.Looser sys.n q') (hw : List.Forall₂ (WiderVar sys.n) ds ds') : o'.on = o.on ∧ (o.tree.Solves σ → o'.tree.Solves σ) := by
  obtain ⟨h2, prevOn, hp, hiff⟩ := onOff_iff hv hq hds h
  obtain ⟨_, prevOn', hp', hiff'⟩ := onOff_iff hv hq' hds' h'
  rw [wider_previous hw, hp] at hp'
  cases hp'
  have hon : o'.on = o.on := by
    obtain ⟨p1, _, _, _, _, _, _, _, _, g1, g2, _⟩ := onOff_inv h
    obtain ⟨p2, _, _, _, _, _, _, _, _, k1, k2, _⟩ := onOff_inv h'
    rw [wider_previous hw] at k1
    rw [g1] at k1
    cases k1
    rw [g2, k2]
  refine ⟨hon, fun hs => ?_⟩
  have r := (hiff σ).1 hs
  obtain ⟨_, a2, a3, a4, a5, a6, a7, a8, sa, sb, sc, b1, b2, b3, b4, b5, b6, _⟩ := onOff_parts h
  obtain ⟨_, a2', a3', a4', a5', a6', a7', a8', sa', sb', sc', b1', b2', b3', b4', b5', b6', _⟩ := onOff_parts h'
  have bin := previousOn_bin hp
  have useMin : ∀ {n a b}, LooserMinTS n a b → b.isSome → a.isSome := by
    intro n a b hab hb
    obtain ⟨m', e⟩ := Option.isSome_iff_exists.1 hb
    obtain ⟨m, e', _⟩ := hab m' e
    rw [e']; rfl
  have useMax : ∀ {n a b}, LooserMaxTS n a b → b.isSome → a.isSome := by
    intro n a b hab hb
    obtain ⟨m', e⟩ := Option.isSome_iff_exists.1 hb
    obtain ⟨m, e', _⟩ := hab m' e
    rw [e']; rfl
  have onUsed : ∀ x', o'.consecOn = some x' → ∃ x, o.consecOn = some x ∧ x'.label = x.label := by
    intro x' hx'
    rw [hx'] at a5'
    have : q'.useConsecOn = true := a5'.symm
    have : q.useConsecOn = true := by
      unfold OnOffParams.useConsecOn at this ⊢
      rw [Bool.or_eq_true] at this ⊢
      exact this.imp (useMin hl.onMin) (useMax hl.onMax)
    rw [this] at a5
    obtain ⟨x, hx⟩ := Option.isSome_iff_exists.1 a5
    exact ⟨x, hx, by rw [(a6 x hx).1, (a6' x' hx').1]⟩
  have offUse : q'.useConsecOff = true → q.useConsecOff = true := by
    intro this
    unfold OnOffParams.useConsecOff at this ⊢
    rw [Bool.or_eq_true] at this ⊢
    exact this.imp (useMin hl.offMin) (useMax hl.offMax)
  have offUsed : ∀ x', o'.consecOff = some x' → ∃ x, o.consecOff = some x ∧ x'.label = x.label := by
    intro x' hx'
    rw [hx'] at a7'
    rw [offUse a7'.symm] at a7
    obtain ⟨x, hx⟩ := Option.isSome_iff_exists.1 a7
    exact ⟨x, hx, by rw [(a8 x hx).1, (a8' x' hx').1]⟩
  have offVar : ∀ x', o'.off = some x' → ∃ x, o.off = some x ∧ x'.label = x.label := by
    intro x' hx'
    rw [hx'] at a3'
    have : q'.useOff = true := a3'.symm
    rw [show q.useOff = true from offUse this] at a3
    obtain ⟨x, hx⟩ := Option.isSome_iff_exists.1 a3
    exact ⟨x, hx, by rw [(a4 x hx).1, (a4' x' hx').1]⟩
  have tot0 : 0 ≤ sys.total := by
    rw [hv.htotal]
    exact List.sum_nonneg fun x hx => (hv.hpos x hx).le
  refine (hiff' σ).2 ⟨?_, ?_, ?_, ?_, ?_, ?_, ?_, ?_, ?_, ?_⟩
  · rw [hon]; exact r.onBin
  · exact onRel_looser (by rw [hon]) hw r.onBin r.onRel
  · rw [a2', ← a2]; exact hl.totalMin.keep r.totalMin
  · rw [a2', ← a2]; exact hl.totalMax.keep r.totalMax
  · rw [a2', ← a2, hon]; exact r.total
  · intro x' hx'
    obtain ⟨x, hx, e⟩ := offVar x' hx'
    rw [e, hon]
    exact r.off x hx
  · intro x' hx'
    obtain ⟨x, hx, e⟩ := onUsed x' hx'
    obtain ⟨prev, e1, e2⟩ := r.durOn x hx
    rw [e, hon]
    refine ⟨prev, e1, dur_looser e2 hl.onMin hl.onMax (by omega) r.onBin ?_ fun m hm => hn' m (.inl hm)⟩
    have := consec_nonneg (fun x hx => by rcases bin x hx with e | e <;> rw [e] <;> norm_num) hpd e1
    linarith
  · intro x' hx'
    obtain ⟨x, hx, e⟩ := offUsed x' hx'
    obtain ⟨off, prev, e0, e1, e2⟩ := r.durOff x hx
    have : ∃ y, o'.off = some y := by
      rw [hx'] at a7'
      rw [show q'.useOff = true from a7'.symm] at a3'
      exact Option.isSome_iff_exists.1 a3'
    obtain ⟨off', hoff'⟩ := this
    obtain ⟨y, hy, ey⟩ := offVar off' hoff'
    rw [e0] at hy
    cases hy
    refine ⟨off', prev, hoff', e1, ?_⟩
    rw [e, ey]
    refine dur_looser e2 hl.offMin hl.offMax (by omega) (fun t ht => (r.off off e0 t ht).1) ?_ fun m hm => hn' m (.inr (.inr (.inl hm)))
    have := consec_nonneg (fun x hx => by
      obtain ⟨y, hy, rfl⟩ := List.mem_map.1 hx
      rcases bin y hy with e | e <;> rw [e] <;> norm_num) hpd e1
    linarith
  · intro a b c ha hb hc
    rw [b1'] at ha
    rw [b2'] at hb
    rw [b3'] at hc
    cases ha
    cases hb
    cases hc
    rw [hon, b4', b5', b6', ← b4, ← b5, ← b6]
    exact r.switch sa sb sc b1 b2 b3
  · intro c m hc hm
    rw [b3'] at hc
    cases hc
    rw [b6', ← b6]
    exact hl.switches.keep (fun m hm => r.switchMax sc m b3 hm) m hm

end Flix
