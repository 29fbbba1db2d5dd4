import Verif.Props.Window

/-! # Declarations with which the states at the end of a segment can be read off the flow rates -/

namespace Flix

variable {sys : Sys} {L m : Nat} {len : Nat → Nat}

/-- A flow of a given size whose lower limit is above the value that the code compares with. -/
def FlowData.Distinct (sys : Sys) (f : FlowData) : Prop := ∃ x, f.size = .num x ∧ x ≠ 0 ∧ ∀ t < sys.n, sys.cfg.eps < f.lowRel t * x

/-- Wherever starts cost something, it is a flow with a lower limit, or a component with one such flow. -/
structure Comp.Readable (sys : Sys) (c : Comp) : Prop where
  flows : ∀ f ∈ c.flows, ∀ q, f.onOff = some q → q.effectsPerSwitchOn ≠ [] → f.Distinct sys
  comp : ∀ q, c.onOff = some q → q.effectsPerSwitchOn ≠ [] → ∃ f, c.flows = [f] ∧ f.Distinct sys

theorem comp_flows_fit {c : Comp} (h : c.Proper sys) : ∀ f ∈ c.flows, f.Fits sys.n := by
  cases c with
  | plain c => exact (show c.Proper sys from h).fits
  | converter c => exact (show c.comp.Proper sys from h.1).fits
  | storage s => exact (show s.Proper sys from h).comp.fits
  | transmission t => exact (show t.Proper sys from h).plain.fits

theorem Comp.Readable.clear {c : Comp} (hr : c.Readable sys) (hv : sys.Valid) (hc : Cover sys.n L m len) (hp : c.Proper sys) (hl : c.Local) {σ : Nat → Assignment} {st : Nat → SegStart}
    (hs : ∀ k < m, ∃ ok, (c.window (k * L) (len k) (st k)).model (sys.window (k * L) (len k)) = .ok ok ∧ ok.tree.Solves (σ k)) : c.Clear sys.cfg.eps L m σ := by
  have seg : ∀ k < m, CompStarts (sys.window (k * L) (len k)) (σ k) (c.window (k * L) (len k) (st k)) := by
    intro k hk
    obtain ⟨ok, h1, h2⟩ := hs k hk
    exact anyComp_starts (valid_window hv (hc.inside k hk)) (anyComp_window_proper hp hl (hc.inside k hk)) h1 h2
  have inseg : ∀ k, k + 1 < m → L - 1 < len k := fun k hk => by
    have := hc.whole k hk
    have := hc.pos
    omega
  have heps := hv.heps
  -- a rate at the end of a segment is zero or above `eps`
  have two : ∀ k, k + 1 < m → ∀ f ∈ c.flows, (f.onOff ≠ none ∨ c.onOff ≠ none) → f.Distinct sys →
      σ k (rateL c.label f.label) (L - 1) = 0 ∨ sys.cfg.eps < σ k (rateL c.label f.label) (L - 1) := by
    rintro k hk f hf ho ⟨x, hx, hx0, hlow⟩
    obtain ⟨v1, -, -, v4⟩ := comp_window_views (k * L) (len k) (st k) c
    have v2 := comp_window_flows (k * L) (len k) (st k) c
    have hi := hc.inside k (by omega)
    have := (seg k (by omega)).least (sizes_window (local_sizes hl) _ _ _).1 (f.window (k * L) (len k) ((st k).rate c.label f.label)) (by
      rw [v2]
      exact List.mem_map.2 ⟨f, hf, rfl⟩) (by
      rw [flow_window_onOff, v4]
      exact ho.imp (by simp) (by simp)) x hx hx0 (L - 1) (inseg k hk)
    rw [v1, (low_window (comp_flows_fit hp f hf) hi (inseg k hk)).1] at this
    rcases this with h0 | h1
    · exact .inl h0
    · exact .inr (lt_of_lt_of_le (hlow _ (by have := inseg k hk; omega)) h1)
  refine ⟨fun f hf q hq hne k hk => ?_, fun q hq hne k hk hon f hf => ?_⟩
  · rcases two k hk f hf (.inl (by rw [hq]; simp)) (hr.flows f hf q hq hne) with h | h
    · rw [h]; exact ne_of_lt heps
    · exact ne_of_gt h
  · obtain ⟨g, hg, hd⟩ := hr.comp q hq hne
    rw [hg] at hf
    simp only [List.getLast?_singleton, Option.some.injEq] at hf
    subst hf
    obtain ⟨v1, -, -, v4⟩ := comp_window_views (k * L) (len k) (st k) c
    have hst := (seg k (by omega)).state (by rw [v4, hq]; simp) (L - 1) (inseg k hk)
    rw [v1, comp_window_flows, hg] at hst
    rcases hst with ⟨h0, -⟩ | ⟨-, f', hf', hne'⟩
    · rw [hon] at h0
      norm_num at h0
    · rw [List.map_singleton, List.mem_singleton] at hf'
      subst hf'
      exact (two k hk g (by rw [hg]; simp) (.inr (by rw [hq]; simp)) hd).resolve_left hne'

/-- Free starts need not be read off. -/
theorem System.FreeStarts.readable {s : System} (h : s.FreeStarts) : ∀ c ∈ s.comps, c.Readable sys := fun c hc =>
  ⟨fun f hf q hq hne => absurd ((h c hc).1 f hf q hq) hne, fun q hq hne => absurd ((h c hc).2 q hq) hne⟩

end Flix
