import Verif.Model.SegResults
import Verif.Lemmas.Combine
import Verif.Lemmas.Segmented

/-!
# Lemmas about combined scalars and recorded start values
-/

namespace Flix

theorem scal?_some {t : RTree} {x} : t.scal? = some x ↔ t = .scal x := by cases t <;> simp [RTree.scal?]

theorem scalEntries_lookup {ds : List (List (String × RTree))} {k : String} : ∀ {kvs vs : List (String × RTree)},
    scalEntries kvs ds = .ok vs →
    (kvs.lookup k = none → vs.lookup k = none) ∧ ∀ t, kvs.lookup k = some t → ∃ rest v, ds.mapM (fun d => dictGet d k) = .ok rest ∧
      scalRec t rest = .ok v ∧ vs.lookup k = some v := by
  intro kvs
  induction kvs with
  | nil =>
    intro vs h
    simp only [scalEntries, Except.ok.injEq] at h
    subst h
    exact ⟨fun _ => rfl, by simp⟩
  | cons q kvs ih =>
    intro vs h
    obtain ⟨k', t'⟩ := q
    simp only [scalEntries] at h
    obtain ⟨rest, h1, h⟩ := bind_ok.1 h
    obtain ⟨v, h2, h⟩ := bind_ok.1 h
    obtain ⟨vs', h3, h⟩ := bind_ok.1 h
    simp only [except_pure, Except.ok.injEq] at h
    subst h
    obtain ⟨i1, i2⟩ := ih h3
    rw [List.lookup_cons, List.lookup_cons]
    cases hk : (k == k') with
    | true =>
      rw [beq_iff_eq] at hk
      subst hk
      refine ⟨by simp, ?_⟩
      intro t ht
      simp only [Option.some.injEq] at ht
      subst ht
      exact ⟨rest, v, h1, h2, rfl⟩
    | false => exact ⟨i1, i2⟩

theorem scalEntries_keys {ds : List (List (String × RTree))} : ∀ {kvs vs : List (String × RTree)},
    scalEntries kvs ds = .ok vs → vs.map Prod.fst = kvs.map Prod.fst := by
  intro kvs
  induction kvs with
  | nil =>
    intro vs h
    simp only [scalEntries, Except.ok.injEq] at h
    subst h; rfl
  | cons q kvs ih =>
    intro vs h
    obtain ⟨k', t'⟩ := q
    simp only [scalEntries] at h
    obtain ⟨rest, h1, h⟩ := bind_ok.1 h
    obtain ⟨v, h2, h⟩ := bind_ok.1 h
    obtain ⟨vs', h3, h⟩ := bind_ok.1 h
    simp only [except_pure, Except.ok.injEq] at h
    subst h
    simp [ih h3]

/-- The three ways of `combine_scalars_recursively`. -/
theorem scalRec_cases {t : RTree} {rest : List RTree} {c : RTree} (h : scalRec t rest = .ok c) :
    (∃ kvs ds vs, t = .dict kvs ∧ List.Forall₂ (fun r d => r = RTree.dict d) rest ds ∧ scalEntries kvs ds = .ok vs ∧ c = .dict vs) ∨
    (∃ a as, t = .scal a ∧ List.Forall₂ (fun r d => r = RTree.scal d) rest as ∧ c = .arr (a :: as)) ∨ c = .nul := by
  have leaf : ∀ t rest, scalLeaf (t :: rest) = .nul ∨
      ∃ a as, t = .scal a ∧ List.Forall₂ (fun r d => r = RTree.scal d) rest as ∧ scalLeaf (t :: rest) = .arr (a :: as) := by
    intro t rest
    unfold scalLeaf
    cases ha : allOf RTree.scal? (t :: rest) with
    | none => exact .inl rfl
    | some xss =>
      have := allOf_iff.1 ha
      cases this with
      | cons h1 h2 => exact .inr ⟨_, _, scal?_some.1 h1, h2.imp fun _ _ h => scal?_some.1 h, rfl⟩
  cases t with
  | dict kvs =>
    simp only [scalRec] at h
    cases hd : allOf RTree.dict? rest with
    | none =>
      simp only [hd, Except.ok.injEq] at h
      subst h
      rcases leaf (.dict kvs) rest with h | ⟨a, as, h1, -, -⟩
      · exact .inr (.inr h)
      · cases h1
    | some ds =>
      simp only [hd] at h
      cases he : scalEntries kvs ds with
      | error e => simp [he, Except.map] at h
      | ok vs =>
        simp only [he, Except.map, Except.ok.injEq] at h
        subst h
        exact .inl ⟨kvs, ds, vs, rfl, (allOf_iff.1 hd).imp fun _ _ h => dict?_some.1 h, he, rfl⟩
  | arr xs =>
    simp only [scalRec, Except.ok.injEq] at h
    subst h
    rcases leaf (.arr xs) rest with h | ⟨a, as, h1, -, -⟩
    · exact .inr (.inr h)
    · cases h1
  | scal x =>
    simp only [scalRec, Except.ok.injEq] at h
    subst h
    rcases leaf (.scal x) rest with h | h
    · exact .inr (.inr h)
    · exact .inr (.inl h)
  | nul =>
    simp only [scalRec, Except.ok.injEq] at h
    subst h
    rcases leaf .nul rest with h | ⟨a, as, h1, -, -⟩
    · exact .inr (.inr h)
    · cases h1

theorem scalRec_arr (p : List String) : ∀ {t c : RTree} {rest : List RTree} {a : ℚ} {as : List ℚ},
    scalRec t rest = .ok c → t.get p = some (.scal a) → List.Forall₂ (fun r b => ∃ v, r.get p = some v ∧ v = RTree.scal b) rest as →
    c.get p = some (.arr (a :: as)) := by
  induction p with
  | nil =>
    intro t c rest a as h ht hr
    rw [RTree.get_nil, Option.some.injEq] at ht
    subst ht
    have hr' : List.Forall₂ (fun r b => RTree.scal? r = some b) rest as := hr.imp fun r b ⟨v, h1, h2⟩ => by
      rw [RTree.get_nil, Option.some.injEq] at h1
      rw [h1, h2]; rfl
    simp only [scalRec, Except.ok.injEq, scalLeaf] at h
    have : allOf RTree.scal? (.scal a :: rest) = some (a :: as) := allOf_iff.2 (.cons rfl hr')
    rw [this] at h
    rw [← h]
    rfl
  | cons k p ih =>
    intro t c rest a as h ht hr
    obtain ⟨kvs, t', rfl, ht1, ht2⟩ := RTree.get_cons ht
    obtain ⟨ds, rest', d1, d2, d3⟩ := forall₂_dict_lookup hr
    have hd : allOf RTree.dict? rest = some ds := allOf_iff.2 (d1.imp fun _ _ h => dict?_some.2 h)
    simp only [scalRec, hd] at h
    cases he : scalEntries kvs ds with
    | error e => simp [he, Except.map] at h
    | ok vs =>
      simp only [he, Except.map, Except.ok.injEq] at h
      subst h
      obtain ⟨rest'', v, e1, e2, e3⟩ := (scalEntries_lookup (k := k) he).2 t' ht1
      rw [d2, Except.ok.injEq] at e1
      subst e1
      rw [RTree.get_dict, e3]
      exact ih e2 ht2 d3

theorem scalRec_arr_conv (p : List String) : ∀ {t c : RTree} {rest : List RTree} {xs : List ℚ},
    scalRec t rest = .ok c → c.get p = some (.arr xs) →
    ∃ a as, t.get p = some (.scal a) ∧ List.Forall₂ (fun r b => r.get p = some (RTree.scal b)) rest as ∧ xs = (a :: as) := by
  induction p with
  | nil =>
    intro t c rest xs h hc
    rw [RTree.get_nil, Option.some.injEq] at hc
    subst hc
    rcases scalRec_cases h with ⟨_, _, _, _, _, _, h⟩ | ⟨a, as, h1, h2, h3⟩ | h
    · cases h
    · cases h3
      exact ⟨a, as, by rw [h1]; rfl, h2.imp fun r b h => by rw [h]; rfl, rfl⟩
    · cases h
  | cons k p ih =>
    intro t c rest xs h hc
    obtain ⟨vs, c', rfl, h1, h2⟩ := RTree.get_cons hc
    rcases scalRec_cases h with ⟨kvs, ds, vs', rfl, g1, g2, g3⟩ | ⟨a, as, _, _, h3⟩ | h
    · cases g3
      cases hk : kvs.lookup k with
      | none => rw [(scalEntries_lookup g2).1 hk] at h1; cases h1
      | some t' =>
        obtain ⟨rest', v, e1, e2, e3⟩ := (scalEntries_lookup (k := k) g2).2 t' hk
        rw [h1, Option.some.injEq] at e3
        subst e3
        obtain ⟨a, as, i1, i2, i3⟩ := ih e2 h2
        refine ⟨a, as, by rw [RTree.get_dict, hk]; exact i1, ?_, i3⟩
        exact forall₂_chain g1 (mapM_dictGet e1) i2 fun r d r' b q1 q2 q3 => by rw [q1, RTree.get_dict, q2]; exact q3
    · cases h3
    · cases h

/-- The combination has the keys of the first value. -/
theorem scalRec_uniq {t c : RTree} {rest : List RTree} (h : scalRec t rest = .ok c) (hu : t.Uniq) : c.Uniq := by
  intro p
  induction p generalizing t c rest with
  | nil =>
    intro kvs hk
    rw [RTree.get_nil, Option.some.injEq] at hk
    subst hk
    rcases scalRec_cases h with ⟨kvs', ds, vs, rfl, _, g2, g3⟩ | ⟨_, _, _, _, h⟩ | h
    · cases g3
      rw [scalEntries_keys g2]
      exact hu.keys
    · cases h
    · cases h
  | cons k p ih =>
    intro kvs hk
    obtain ⟨vs, c', rfl, h1, h2⟩ := RTree.get_cons hk
    rcases scalRec_cases h with ⟨kvs', ds, vs', rfl, g1, g2, g3⟩ | ⟨_, _, _, _, h⟩ | h
    · cases g3
      cases hk : kvs'.lookup k with
      | none => rw [(scalEntries_lookup g2).1 hk] at h1; cases h1
      | some t' =>
        obtain ⟨rest', v, e1, e2, e3⟩ := (scalEntries_lookup (k := k) g2).2 t' hk
        rw [h1, Option.some.injEq] at e3
        subst e3
        exact ih e2 (hu.sub hk) kvs h2
    · cases h
    · cases h

/-- The lists of the combined scalars are the scalars found at the same path in all segments. -/
theorem combineScalars_arr {t c : RTree} {rest : List RTree} (h : combineScalars (t :: rest) = .ok c) (hu : t.Uniq)
    (p : List String) (xs : List ℚ) : c.get p = some (.arr xs) ↔
    ∃ a as, t.get p = some (.scal a) ∧ List.Forall₂ (fun r b => r.get p = some (RTree.scal b)) rest as ∧ xs = (a :: as) := by
  simp only [combineScalars] at h
  obtain ⟨c', h1, h⟩ := bind_ok.1 h
  simp only [except_pure, Except.ok.injEq] at h
  subst h
  have hu' := scalRec_uniq h1 hu
  rw [removeEmpty_arr p (removeNone_uniq hu'), removeNone_arr p hu']
  constructor
  · exact scalRec_arr_conv p h1
  · rintro ⟨a, as, g1, g2, rfl⟩
    exact scalRec_arr p h1 g1 (g2.imp fun r b h => ⟨_, h, rfl⟩)

mutual
/-- No key is missing when every path of the first value exists in the others. -/
theorem scalRec_total : ∀ (t : RTree) (rest : List RTree), t.Uniq →
    (∀ r ∈ rest, ∀ p, (t.get p).isSome → (r.get p).isSome) → ∃ c, scalRec t rest = .ok c
  | .dict kvs, rest, hu, h => by
    simp only [scalRec]
    cases hd : allOf RTree.dict? rest with
    | none => exact ⟨_, rfl⟩
    | some ds =>
      have hds := allOf_iff.1 hd
      obtain ⟨vs, hvs⟩ := scalEntries_total kvs ds hu.keys
        (fun k t hk => hu.sub hk)
        (by
          intro d hd' k t hk
          obtain ⟨r, hr, hrd⟩ := forall₂_mem_right hds hd'
          rw [dict?_some] at hrd
          subst hrd
          intro p hp
          exact h _ hr (k :: p) (by rw [RTree.get_dict, hk]; exact hp))
      exact ⟨.dict vs, by simp [hvs, Except.map]⟩
  | .arr xs, rest, _, _ => ⟨_, rfl⟩
  | .scal xs, rest, _, _ => ⟨_, rfl⟩
  | .nul, rest, _, _ => ⟨_, rfl⟩
theorem scalEntries_total : ∀ (kvs : List (String × RTree)) (ds : List (List (String × RTree))), (kvs.map Prod.fst).Nodup →
    (∀ k t, kvs.lookup k = some t → t.Uniq) →
    (∀ d ∈ ds, ∀ k t, kvs.lookup k = some t → ∀ p, (t.get p).isSome → ((RTree.dict d).get (k :: p)).isSome) →
    ∃ vs, scalEntries kvs ds = .ok vs
  | [], _, _, _, _ => ⟨_, rfl⟩
  | (k, t) :: kvs, ds, hn, hu, h => by
    simp only [List.map_cons, List.nodup_cons] at hn
    have hkt : ((k, t) :: kvs).lookup k = some t := by simp [List.lookup_cons]
    have hrest : ∃ rest, ds.mapM (fun d => dictGet d k) = .ok rest := by
      have : ∀ d ∈ ds, ∃ r, dictGet d k = .ok r := by
        intro d hd
        have := h d hd k t hkt [] (by simp [RTree.get_nil])
        rw [RTree.get_dict] at this
        cases hl : d.lookup k with
        | none => simp [hl] at this
        | some r => exact ⟨r, dictGet_ok.2 hl⟩
      clear h
      induction ds with
      | nil => exact ⟨[], rfl⟩
      | cons d ds ih =>
        obtain ⟨r, hr⟩ := this d (by simp)
        obtain ⟨rs, hrs⟩ := ih (fun d' hd' => this d' (by simp [hd']))
        exact ⟨r :: rs, by rw [List.mapM_cons, hr, hrs]; rfl⟩
    obtain ⟨rest, hrest⟩ := hrest
    obtain ⟨v, hv⟩ := scalRec_total t rest (hu k t hkt) (by
      intro r hr p hp
      obtain ⟨d, hd, hdr⟩ := forall₂_mem_right (mapM_dictGet hrest) hr
      have := h d hd k t hkt p hp
      rw [RTree.get_dict, hdr] at this
      exact this)
    have hlook : ∀ k' t', kvs.lookup k' = some t' → ((k, t) :: kvs).lookup k' = some t' := by
      intro k' t' hk'
      have hne : (k' == k) = false := by
        rw [beq_eq_false_iff_ne]
        rintro rfl
        exact hn.1 (List.mem_map.2 ⟨_, lookup_mem hk', rfl⟩)
      rw [List.lookup_cons, hne]
      exact hk'
    obtain ⟨vs, hvs⟩ := scalEntries_total kvs ds hn.2 (fun k' t' hk' => hu k' t' (hlook k' t' hk'))
      (fun d hd k' t' hk' => h d hd k' t' (hlook k' t' hk'))
    exact ⟨(k, v) :: vs, by simp only [scalEntries, hrest, ok_bind, hv, hvs]; rfl⟩
end

theorem combineScalars_total {t : RTree} {rest : List RTree} (hu : t.Uniq)
    (h : ∀ r ∈ rest, ∀ p, (t.get p).isSome → (r.get p).isSome) : ∃ c, combineScalars (t :: rest) = .ok c := by
  obtain ⟨c, hc⟩ := scalRec_total t rest hu h
  exact ⟨removeEmpty (removeNone c), by simp only [combineScalars, hc]; rfl⟩


/-! ## Recorded start values -/

theorem segName_inj {i j : Nat} (h : segName i = segName j) : i = j := by
  unfold segName at h
  rw [String.append_right_inj] at h
  have := toString_nat_inj h
  omega

theorem setEntry_new {α} {d : List (String × α)} {k : String} {v : α} (h : k ∉ d.map Prod.fst) : setEntry d k v = d ++ [(k, v)] := by
  unfold setEntry
  rw [if_neg]
  simp only [List.any_eq_true, not_exists, not_and, beq_iff_eq]
  intro q hq he
  exact h (List.mem_map.2 ⟨q, hq, he⟩)

theorem foldl_setEntry {α} : ∀ {l d : List (String × α)}, ((d ++ l).map Prod.fst).Nodup → l.foldl (fun d q => setEntry d q.1 q.2) d = d ++ l := by
  intro l
  induction l with
  | nil => intro d _; simp
  | cons q l ih =>
    intro d h
    rw [List.foldl_cons, setEntry_new, ih]
    · simp
    · simpa using h
    · intro hm
      rw [List.map_append, List.nodup_append] at h
      exact h.2.2 _ hm _ (by simp) rfl

/-- The start values of all sub calculations under their names. -/
def SegState.overview (s : SegState) : List (String × StartVals) := s.subs.mapIdx fun k a => (segName k, (a.flows, a.stores))

theorem SegState.overview_keys (s : SegState) : s.overview.map Prod.fst = (List.range s.subs.length).map segName := by
  unfold SegState.overview
  apply List.ext_getElem
  · simp
  · intro i h1 h2
    simp

theorem nodup_segNames (n : Nat) : ((List.range n).map segName).Nodup :=
  List.Nodup.map (fun _ _ h => segName_inj h) List.nodup_range

/-- What has been transferred is recorded. -/
def SegState.Recorded (s : SegState) : Prop := s.given = s.overview.tail

theorem SegCalc.enter_given {c : SegCalc} {i : Nat} {s : SegState} : ((c.enter i s).2 ≠ none → (c.enter i s).1.given = s.given) ∧
    ((c.enter i s).2 = none → s.subs = [] → (c.enter i s).1.given = s.given) ∧
    ((c.enter i s).2 = none → s.subs ≠ [] → (c.enter i s).1.given = setEntry s.given (segName i) ((c.enter i s).1.flows, (c.enter i s).1.stores)) := by
  unfold SegCalc.enter
  by_cases he : s.subs = []
  · rw [if_pos he]
    exact ⟨fun _ => rfl, fun _ _ => rfl, fun _ h => absurd he h⟩
  · rw [if_neg he]
    refine ⟨?_, fun _ h => absurd h he, ?_⟩
    all_goals
      unfold SegCalc.transfer SegCalc.transferValues
      cases hm : s.model with
      | none => simp
      | some r =>
        simp only
        rcases ht : transferList (-(1 + c.o)) r.flowRates s.flows with ⟨fs, e⟩
        cases e with
        | some e => simp
        | none =>
          rcases ht2 : transferList (-(1 + c.o)) r.charges s.stores with ⟨ss, e⟩
          cases e with
          | some e => simp
          | none => simp [SegState.record]

theorem SegCalc.loop_recorded {c : SegCalc} {solver : SegSolver} (m : Nat) : ∀ {s : SegState}, s.Recorded →
    (c.loop solver m s.subs.length s).1.Recorded := by
  induction m with
  | zero => intro s h; exact h
  | succ m ih =>
    intro s h
    unfold SegCalc.loop
    obtain ⟨g1, g2, g3⟩ := c.enter_given (i := s.subs.length) (s := s)
    have hf := (c.enter_frame s.subs.length s).1
    rcases he : c.enter s.subs.length s with ⟨s1, e⟩
    rw [he] at g1 g2 g3 hf
    simp only at g1 g2 g3 hf
    cases e with
    | some e =>
      simp only
      have := g1 (by simp)
      unfold SegState.Recorded SegState.overview at h ⊢
      rw [this, hf, h]
    | none =>
      simp only
      have hrec : (c.solveSeg solver s.subs.length s1).1.Recorded := by
        unfold SegState.Recorded SegState.overview SegCalc.solveSeg
        simp only [List.mapIdx_concat, hf]
        by_cases hn : s.subs = []
        · rw [g2 rfl hn, h, SegState.overview, hn]
          rfl
        · rw [g3 rfl hn, setEntry_new, h, SegState.overview]
          · rw [List.tail_append_of_ne_nil]
            simpa using hn
          · rw [h, List.map_tail, s.overview_keys]
            intro hm
            obtain ⟨j, hj, hj'⟩ := List.mem_map.1 (List.mem_of_mem_tail hm)
            have := segName_inj hj'
            simp at hj
            omega
      have hlen : (c.solveSeg solver s.subs.length s1).1.subs.length = s.subs.length + 1 := by simp [SegCalc.solveSeg, hf]
      rcases hs : c.solveSeg solver s.subs.length s1 with ⟨s2, e⟩
      rw [hs] at hrec hlen
      cases e with
      | some e => exact hrec
      | none =>
        simp only at hrec hlen ⊢
        rw [← hlen]
        exact ih hrec

theorem SegState.reset_frame (s : SegState) : s.reset.1.subs = s.subs ∧ s.reset.1.given = s.given ∧ s.reset.1.origF = s.origF ∧ s.reset.1.origS = s.origS := by
  unfold SegState.reset
  rcases resetList s.origF s.flows with ⟨fs, e⟩
  cases e <;> exact ⟨rfl, rfl, rfl, rfl⟩

/-- The first sub calculation of a loop is built with the values at its start. -/
theorem SegCalc.loop_first {c : SegCalc} {solver : SegSolver} (m : Nat) : ∀ {i : Nat} {s : SegState} {a : SegSub},
    s.subs[0]? = some a → (c.loop solver m i s).1.subs[0]? = some a := by
  induction m with
  | zero => intro i s a h; exact h
  | succ m ih =>
    intro i s a h
    unfold SegCalc.loop
    have hf := (c.enter_frame i s).1
    rcases he : c.enter i s with ⟨s1, e⟩
    rw [he] at hf
    simp only at hf
    cases e with
    | some e => simp only; rw [hf]; exact h
    | none =>
      simp only
      have h1 : (c.solveSeg solver i s1).1.subs[0]? = some a := by
        simp only [SegCalc.solveSeg, hf]
        rw [List.getElem?_append_left]
        · exact h
        · by_contra hc
          rw [List.getElem?_eq_none (by omega)] at h
          cases h
      rcases hs : c.solveSeg solver i s1 with ⟨s2, e⟩
      rw [hs] at h1
      cases e with
      | some e => exact h1
      | none => exact ih h1

theorem SegCalc.loop_start {c : SegCalc} {solver : SegSolver} {m : Nat} {s : SegState} {a : SegSub} (hs : s.subs = [])
    (h : (c.loop solver m 0 s).1.subs[0]? = some a) : a.flows = s.flows ∧ a.stores = s.stores := by
  cases m with
  | zero => simp [SegCalc.loop, hs] at h
  | succ m =>
    unfold SegCalc.loop at h
    simp only [SegCalc.enter, hs, if_true] at h
    have h1 : (c.solveSeg solver 0 s).1.subs[0]? = some { idx := c.indices 0, flows := s.flows, stores := s.stores, res := (solver 0 (c.indices 0) s.flows s.stores).2 } := by
      simp [SegCalc.solveSeg, hs]
    rcases he : c.solveSeg solver 0 s with ⟨s2, e⟩
    rw [he] at h1 h
    cases e with
    | some e =>
      simp only at h h1
      rw [h1, Option.some.injEq] at h
      subst h
      exact ⟨rfl, rfl⟩
    | none =>
      simp only at h h1
      rw [c.loop_first m h1, Option.some.injEq] at h
      subst h
      exact ⟨rfl, rfl⟩

/-- The overview after a run, whether it raised or not, if at least one segment was begun. -/
theorem SegCalc.startValues_run {c : SegCalc} {solver : SegSolver} {fs ss : List StartVal}
    (hs : (c.solveAll solver (SegState.start fs ss)).1.subs ≠ []) :
    (c.solveAll solver (SegState.start fs ss)).1.startValues = .ok (c.solveAll solver (SegState.start fs ss)).1.overview := by
  have key : ∀ s1, (c.loop solver c.nSeg 0 (SegState.start fs ss)).1 = s1 → s1.subs ≠ [] → ∀ s2 : SegState, s2.subs = s1.subs → s2.given = s1.given → s2.origF = s1.origF →
      s2.origS = s1.origS → s2.startValues = .ok s2.overview := by
    intro s1 e1 hne s2 h1 h2 h3 h4
    have hrec : s1.Recorded := by
      rw [← e1]
      exact c.loop_recorded (s := SegState.start fs ss) c.nSeg rfl
    obtain ⟨f1, f2, -, -⟩ := c.loop_frame (solver := solver) c.nSeg 0 (SegState.start fs ss)
    rw [e1] at f1 f2
    unfold SegState.startValues
    rw [if_neg (by rw [h1]; exact hne), h2, h3, h4, hrec]
    have hov : s2.overview = s1.overview := by unfold SegState.overview; rw [h1]
    cases hsub : s1.subs with
    | nil => exact absurd hsub hne
    | cons a l =>
      have ha := c.loop_start (m := c.nSeg) (solver := solver) (s := SegState.start fs ss) (a := a) rfl (by rw [e1, hsub]; rfl)
      have hcons : [(segName 0, (s1.origF, s1.origS))] ++ s1.overview.tail = s1.overview := by
        unfold SegState.overview
        rw [hsub, List.mapIdx_cons, List.tail_cons, f1, f2, ha.1, ha.2]
        rfl
      rw [foldl_setEntry, hcons, hov]
      rw [hcons, s1.overview_keys]
      exact nodup_segNames _
  unfold SegCalc.solveAll at hs ⊢
  rcases he : c.loop solver c.nSeg 0 (SegState.start fs ss) with ⟨s1, e⟩
  rw [he] at hs key
  cases e with
  | some e => exact key s1 rfl hs s1 rfl rfl rfl rfl
  | none =>
    obtain ⟨r1, r2, r3, r4⟩ := s1.reset_frame
    simp only at hs ⊢
    exact key s1 rfl (by rw [← r1]; exact hs) _ r1 r2 r3 r4

end Flix
