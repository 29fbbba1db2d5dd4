import Verif.Lemmas.Segmented

/-!
# Combining nested results
-/

namespace Flix

/-- The value at a path of keys. -/
def RTree.get : RTree → List String → Option RTree
  | t, [] => some t
  | t, k :: p => match t.dict? with
    | some kvs => (kvs.lookup k).bind fun v => v.get p
    | none => none

/-- The keys of every reachable dictionary are different, as in Python. -/
def RTree.Uniq (t : RTree) : Prop := ∀ p kvs, t.get p = some (.dict kvs) → (kvs.map Prod.fst).Nodup

theorem RTree.get_nil (t : RTree) : t.get [] = some t := by cases t <;> rfl

theorem RTree.get_dict (kvs : List (String × RTree)) (k : String) (p : List String) :
    (RTree.dict kvs).get (k :: p) = (kvs.lookup k).bind fun v => v.get p := rfl

theorem RTree.get_cons {t v : RTree} {k : String} {p : List String} (h : t.get (k :: p) = some v) :
    ∃ kvs t', t = .dict kvs ∧ kvs.lookup k = some t' ∧ t'.get p = some v := by
  cases t with
  | dict kvs =>
    rw [RTree.get_dict] at h
    cases hl : kvs.lookup k with
    | none => simp [hl] at h
    | some t' => exact ⟨kvs, t', rfl, hl, by simpa [hl] using h⟩
  | _ => simp [RTree.get, RTree.dict?] at h

theorem RTree.Uniq.sub {kvs : List (String × RTree)} (h : (RTree.dict kvs).Uniq) {k : String} {t : RTree} (hk : kvs.lookup k = some t) :
    t.Uniq := fun p kvs' hp => h (k :: p) kvs' (by rw [RTree.get_dict, hk]; exact hp)

theorem RTree.Uniq.keys {kvs : List (String × RTree)} (h : (RTree.dict kvs).Uniq) : (kvs.map Prod.fst).Nodup := h [] kvs rfl

theorem allOf_iff {α β} {f : α → Option β} {as : List α} {bs : List β} :
    allOf f as = some bs ↔ List.Forall₂ (fun a b => f a = some b) as bs := by
  induction as generalizing bs with
  | nil =>
    simp only [allOf, Option.some.injEq]
    constructor
    · rintro rfl; exact .nil
    · intro h; cases h; rfl
  | cons a as ih =>
    simp only [allOf]
    constructor
    · intro h
      cases ha : f a with
      | none => simp [ha] at h
      | some b =>
        cases hs : allOf f as with
        | none => simp [ha, hs] at h
        | some bs' =>
          simp only [ha, hs, Option.some.injEq] at h
          subst h
          exact .cons ha (ih.1 hs)
    · intro h
      cases h with
      | cons h1 h2 => rw [h1, ih.2 h2]

theorem lookup_mem {kvs : List (String × RTree)} {k : String} {t : RTree} (h : kvs.lookup k = some t) : (k, t) ∈ kvs := by
  induction kvs with
  | nil => simp at h
  | cons q kvs ih =>
    obtain ⟨k', t'⟩ := q
    rw [List.lookup_cons] at h
    cases hk : (k == k') with
    | true =>
      simp only [hk, Option.some.injEq] at h
      rw [beq_iff_eq] at hk
      subst hk; subst h
      simp
    | false =>
      simp only [hk] at h
      exact List.mem_cons_of_mem _ (ih h)

theorem lookup_none {kvs : List (String × RTree)} {k : String} : kvs.lookup k = none ↔ k ∉ kvs.map Prod.fst := by
  induction kvs with
  | nil => simp
  | cons q kvs ih =>
    obtain ⟨k', t'⟩ := q
    rw [List.lookup_cons]
    cases hk : (k == k') with
    | true =>
      rw [beq_iff_eq] at hk
      simp [hk]
    | false =>
      have : k ≠ k' := by simpa using hk
      simp only [ih, List.map_cons, List.mem_cons, not_or]
      exact ⟨fun h => ⟨this, h⟩, fun h => h.2⟩

theorem dictGet_ok {d : List (String × RTree)} {k : String} {v : RTree} : dictGet d k = .ok v ↔ d.lookup k = some v := by
  unfold dictGet
  cases d.lookup k <;> simp

theorem combineEntries_lookup {n : Nat} {ds : List (List (String × RTree))} {k : String} : ∀ {kvs vs : List (String × RTree)},
    combineEntries n kvs ds = .ok vs →
    (kvs.lookup k = none → vs.lookup k = none) ∧ ∀ t, kvs.lookup k = some t → ∃ rest v, ds.mapM (fun d => dictGet d k) = .ok rest ∧
      combineRec n t rest = .ok v ∧ vs.lookup k = some v := by
  intro kvs
  induction kvs with
  | nil =>
    intro vs h
    simp only [combineEntries, Except.ok.injEq] at h
    subst h
    exact ⟨fun _ => rfl, by simp⟩
  | cons q kvs ih =>
    intro vs h
    obtain ⟨k', t'⟩ := q
    simp only [combineEntries] at h
    obtain ⟨rest, h1, h⟩ := bind_ok.1 h
    obtain ⟨v, h2, h⟩ := bind_ok.1 h
    obtain ⟨vs', h3, h⟩ := bind_ok.1 h
    simp only [except_pure, Except.ok.injEq] at h
    subst h
    obtain ⟨i1, i2⟩ := ih h3
    rw [List.lookup_cons, List.lookup_cons]
    cases hk : (k == k') with
    | true =>
      rw [beq_iff_eq] at hk
      subst hk
      refine ⟨by simp, ?_⟩
      intro t ht
      simp only [Option.some.injEq] at ht
      subst ht
      exact ⟨rest, v, h1, h2, rfl⟩
    | false => exact ⟨i1, i2⟩

theorem combineEntries_keys {n : Nat} {ds : List (List (String × RTree))} : ∀ {kvs vs : List (String × RTree)},
    combineEntries n kvs ds = .ok vs → vs.map Prod.fst = kvs.map Prod.fst := by
  intro kvs
  induction kvs with
  | nil =>
    intro vs h
    simp only [combineEntries, Except.ok.injEq] at h
    subst h; rfl
  | cons q kvs ih =>
    intro vs h
    obtain ⟨k', t'⟩ := q
    simp only [combineEntries] at h
    obtain ⟨rest, h1, h⟩ := bind_ok.1 h
    obtain ⟨v, h2, h⟩ := bind_ok.1 h
    obtain ⟨vs', h3, h⟩ := bind_ok.1 h
    simp only [except_pure, Except.ok.injEq] at h
    subst h
    simp [ih h3]

theorem dict?_some {t : RTree} {kvs} : t.dict? = some kvs ↔ t = .dict kvs := by cases t <;> simp [RTree.dict?]

theorem arr?_some {t : RTree} {xs} : t.arr? = some xs ↔ t = .arr xs := by cases t <;> simp [RTree.arr?]

/-- The three ways of `combine_arrays_recursively`. -/
theorem combineRec_cases {n : Nat} {t : RTree} {rest : List RTree} {c : RTree} (h : combineRec n t rest = .ok c) :
    (∃ kvs ds vs, t = .dict kvs ∧ List.Forall₂ (fun r d => r = RTree.dict d) rest ds ∧ combineEntries n kvs ds = .ok vs ∧ c = .dict vs) ∨
    (∃ a as, t = .arr a ∧ List.Forall₂ (fun r d => r = RTree.arr d) rest as ∧ c = .arr (concatLimited n (a :: as))) ∨ c = .nul := by
  have leaf : ∀ t rest, combineLeaf n (t :: rest) = .nul ∨
      ∃ a as, t = .arr a ∧ List.Forall₂ (fun r d => r = RTree.arr d) rest as ∧ combineLeaf n (t :: rest) = .arr (concatLimited n (a :: as)) := by
    intro t rest
    unfold combineLeaf
    cases ha : allOf RTree.arr? (t :: rest) with
    | none => exact .inl rfl
    | some xss =>
      have := allOf_iff.1 ha
      cases this with
      | cons h1 h2 => exact .inr ⟨_, _, arr?_some.1 h1, h2.imp fun _ _ h => arr?_some.1 h, rfl⟩
  cases t with
  | dict kvs =>
    simp only [combineRec] at h
    cases hd : allOf RTree.dict? rest with
    | none =>
      simp only [hd, Except.ok.injEq] at h
      subst h
      rcases leaf (.dict kvs) rest with h | ⟨a, as, h1, -, -⟩
      · exact .inr (.inr h)
      · cases h1
    | some ds =>
      simp only [hd] at h
      cases he : combineEntries n kvs ds with
      | error e => simp [he, Except.map] at h
      | ok vs =>
        simp only [he, Except.map, Except.ok.injEq] at h
        subst h
        exact .inl ⟨kvs, ds, vs, rfl, (allOf_iff.1 hd).imp fun _ _ h => dict?_some.1 h, he, rfl⟩
  | arr xs =>
    simp only [combineRec, Except.ok.injEq] at h
    subst h
    rcases leaf (.arr xs) rest with h | h
    · exact .inr (.inr h)
    · exact .inr (.inl h)
  | scal x =>
    simp only [combineRec, Except.ok.injEq] at h
    subst h
    rcases leaf (.scal x) rest with h | ⟨a, as, h1, -, -⟩
    · exact .inr (.inr h)
    · cases h1
  | nul =>
    simp only [combineRec, Except.ok.injEq] at h
    subst h
    rcases leaf .nul rest with h | ⟨a, as, h1, -, -⟩
    · exact .inr (.inr h)
    · cases h1

theorem forall₂_dict_lookup {β : Type} {rest : List RTree} {k : String} {p : List String} {as : List β} {Q : RTree → β → Prop}
    (h : List.Forall₂ (fun r a => ∃ v, r.get (k :: p) = some v ∧ Q v a) rest as) :
    ∃ ds rest', List.Forall₂ (fun r d => r = RTree.dict d) rest ds ∧ ds.mapM (fun d => dictGet d k) = .ok rest' ∧
      List.Forall₂ (fun r a => ∃ v, r.get p = some v ∧ Q v a) rest' as := by
  induction h with
  | nil => exact ⟨[], [], .nil, rfl, .nil⟩
  | cons h1 _ ih =>
    obtain ⟨ds, rest', i1, i2, i3⟩ := ih
    obtain ⟨v, g1, g2⟩ := h1
    obtain ⟨kvs, t', rfl, g3, g4⟩ := RTree.get_cons g1
    refine ⟨kvs :: ds, t' :: rest', .cons rfl i1, ?_, .cons ⟨v, g4, g2⟩ i3⟩
    rw [List.mapM_cons, dictGet_ok.2 g3, i2]
    rfl

theorem combineRec_arr {n : Nat} (p : List String) : ∀ {t c : RTree} {rest : List RTree} {a : List ℚ} {as : List (List ℚ)},
    combineRec n t rest = .ok c → t.get p = some (.arr a) → List.Forall₂ (fun r b => ∃ v, r.get p = some v ∧ v = RTree.arr b) rest as →
    c.get p = some (.arr (concatLimited n (a :: as))) := by
  induction p with
  | nil =>
    intro t c rest a as h ht hr
    rw [RTree.get_nil, Option.some.injEq] at ht
    subst ht
    have hr' : List.Forall₂ (fun r b => RTree.arr? r = some b) rest as := hr.imp fun r b ⟨v, h1, h2⟩ => by
      rw [RTree.get_nil, Option.some.injEq] at h1
      rw [h1, h2]; rfl
    simp only [combineRec, Except.ok.injEq, combineLeaf] at h
    have : allOf RTree.arr? (.arr a :: rest) = some (a :: as) := allOf_iff.2 (.cons rfl hr')
    rw [this] at h
    rw [← h]
    rfl
  | cons k p ih =>
    intro t c rest a as h ht hr
    obtain ⟨kvs, t', rfl, ht1, ht2⟩ := RTree.get_cons ht
    obtain ⟨ds, rest', d1, d2, d3⟩ := forall₂_dict_lookup hr
    have hd : allOf RTree.dict? rest = some ds := allOf_iff.2 (d1.imp fun _ _ h => dict?_some.2 h)
    simp only [combineRec, hd] at h
    cases he : combineEntries n kvs ds with
    | error e => simp [he, Except.map] at h
    | ok vs =>
      simp only [he, Except.map, Except.ok.injEq] at h
      subst h
      obtain ⟨rest'', v, e1, e2, e3⟩ := (combineEntries_lookup (k := k) he).2 t' ht1
      rw [d2, Except.ok.injEq] at e1
      subst e1
      rw [RTree.get_dict, e3]
      exact ih e2 ht2 d3

theorem mapM_dictGet {k : String} : ∀ {ds : List (List (String × RTree))} {rest' : List RTree}, ds.mapM (fun d => dictGet d k) = .ok rest' →
    List.Forall₂ (fun d r => d.lookup k = some r) ds rest' := by
  intro ds
  induction ds with
  | nil => intro rest' h; simp only [List.mapM_nil, except_pure, Except.ok.injEq] at h; subst h; exact .nil
  | cons d ds ih =>
    intro rest' h
    rw [List.mapM_cons] at h
    obtain ⟨v, h1, h⟩ := bind_ok.1 h
    obtain ⟨vs, h2, h⟩ := bind_ok.1 h
    simp only [except_pure, Except.ok.injEq] at h
    subst h
    exact .cons (dictGet_ok.1 h1) (ih h2)

theorem forall₂_chain {α β γ δ} {P : α → β → Prop} {Q : β → γ → Prop} {R : γ → δ → Prop} {S : α → δ → Prop} {as : List α} {bs : List β}
    {cs : List γ} {ds : List δ} (h1 : List.Forall₂ P as bs) (h2 : List.Forall₂ Q bs cs) (h3 : List.Forall₂ R cs ds)
    (h : ∀ a b c d, P a b → Q b c → R c d → S a d) : List.Forall₂ S as ds := by
  induction h1 generalizing cs ds with
  | nil => cases h2; cases h3; exact .nil
  | cons p _ ih =>
    cases h2 with
    | cons q q' =>
      cases h3 with
      | cons r r' => exact .cons (h _ _ _ _ p q r) (ih q' r')

theorem combineRec_arr_conv {n : Nat} (p : List String) : ∀ {t c : RTree} {rest : List RTree} {xs : List ℚ},
    combineRec n t rest = .ok c → c.get p = some (.arr xs) →
    ∃ a as, t.get p = some (.arr a) ∧ List.Forall₂ (fun r b => r.get p = some (RTree.arr b)) rest as ∧ xs = concatLimited n (a :: as) := by
  induction p with
  | nil =>
    intro t c rest xs h hc
    rw [RTree.get_nil, Option.some.injEq] at hc
    subst hc
    rcases combineRec_cases h with ⟨_, _, _, _, _, _, h⟩ | ⟨a, as, h1, h2, h3⟩ | h
    · cases h
    · cases h3
      exact ⟨a, as, by rw [h1]; rfl, h2.imp fun r b h => by rw [h]; rfl, rfl⟩
    · cases h
  | cons k p ih =>
    intro t c rest xs h hc
    obtain ⟨vs, c', rfl, h1, h2⟩ := RTree.get_cons hc
    rcases combineRec_cases h with ⟨kvs, ds, vs', rfl, g1, g2, g3⟩ | ⟨a, as, _, _, h3⟩ | h
    · cases g3
      cases hk : kvs.lookup k with
      | none => rw [(combineEntries_lookup g2).1 hk] at h1; cases h1
      | some t' =>
        obtain ⟨rest', v, e1, e2, e3⟩ := (combineEntries_lookup (k := k) g2).2 t' hk
        rw [h1, Option.some.injEq] at e3
        subst e3
        obtain ⟨a, as, i1, i2, i3⟩ := ih e2 h2
        refine ⟨a, as, by rw [RTree.get_dict, hk]; exact i1, ?_, i3⟩
        exact forall₂_chain g1 (mapM_dictGet e1) i2 fun r d r' b q1 q2 q3 => by rw [q1, RTree.get_dict, q2]; exact q3
    · cases h3
    · cases h

/-- The combination has the keys of the first value. -/
theorem combineRec_uniq {n : Nat} {t c : RTree} {rest : List RTree} (h : combineRec n t rest = .ok c) (hu : t.Uniq) : c.Uniq := by
  intro p
  induction p generalizing t c rest with
  | nil =>
    intro kvs hk
    rw [RTree.get_nil, Option.some.injEq] at hk
    subst hk
    rcases combineRec_cases h with ⟨kvs', ds, vs, rfl, _, g2, g3⟩ | ⟨_, _, _, _, h⟩ | h
    · cases g3
      rw [combineEntries_keys g2]
      exact hu.keys
    · cases h
    · cases h
  | cons k p ih =>
    intro kvs hk
    obtain ⟨vs, c', rfl, h1, h2⟩ := RTree.get_cons hk
    rcases combineRec_cases h with ⟨kvs', ds, vs', rfl, g1, g2, g3⟩ | ⟨_, _, _, _, h⟩ | h
    · cases g3
      cases hk : kvs'.lookup k with
      | none => rw [(combineEntries_lookup g2).1 hk] at h1; cases h1
      | some t' =>
        obtain ⟨rest', v, e1, e2, e3⟩ := (combineEntries_lookup (k := k) g2).2 t' hk
        rw [h1, Option.some.injEq] at e3
        subst e3
        exact ih e2 (hu.sub hk) kvs h2
    · cases h
    · cases h

theorem removeNoneList_keys (kvs : List (String × RTree)) : ((removeNoneList kvs).map Prod.fst).Sublist (kvs.map Prod.fst) := by
  induction kvs with
  | nil => simp [removeNoneList]
  | cons q kvs ih =>
    obtain ⟨k, t⟩ := q
    simp only [removeNoneList]
    split
    · exact ih.cons _
    · exact ih.cons_cons _

theorem removeNoneList_lookup {k : String} {kvs : List (String × RTree)} (hn : (kvs.map Prod.fst).Nodup) :
    (removeNoneList kvs).lookup k = (kvs.lookup k).bind fun t => if t.isNul then none else some (removeNone t) := by
  induction kvs with
  | nil => simp [removeNoneList]
  | cons q kvs ih =>
    obtain ⟨k', t⟩ := q
    simp only [List.map_cons, List.nodup_cons] at hn
    simp only [removeNoneList, List.lookup_cons]
    cases hk : (k == k') with
    | true =>
      rw [beq_iff_eq] at hk
      subst hk
      split
      · rename_i h
        simp only [Option.bind_some, h, if_true]
        rw [lookup_none]
        exact fun hm => hn.1 ((removeNoneList_keys kvs).subset hm)
      · rename_i h
        simp [h]
    | false =>
      split
      · exact ih hn.2
      · simp only [List.lookup_cons, hk]
        exact ih hn.2

theorem removeNone_arr (p : List String) : ∀ {t : RTree} (_ : t.Uniq) (xs : List ℚ),
    (removeNone t).get p = some (.arr xs) ↔ t.get p = some (.arr xs) := by
  induction p with
  | nil =>
    intro t _ xs
    rw [RTree.get_nil, RTree.get_nil]
    cases t <;> simp [removeNone]
  | cons k p ih =>
    intro t hu xs
    cases t with
    | dict kvs =>
      simp only [removeNone]
      rw [RTree.get_dict, RTree.get_dict, removeNoneList_lookup hu.keys]
      cases hk : kvs.lookup k with
      | none => simp
      | some t =>
        simp only [Option.bind_some]
        split
        · rename_i hn
          cases t <;> simp [RTree.isNul] at hn
          cases p with
          | nil => simp [RTree.get_nil]
          | cons k' p => simp [RTree.get, RTree.dict?]
        · exact ih (hu.sub hk) xs
    | _ => simp [removeNone]

theorem removeNone_uniq {t : RTree} (hu : t.Uniq) : (removeNone t).Uniq := by
  intro p
  induction p generalizing t with
  | nil =>
    intro kvs h
    rw [RTree.get_nil, Option.some.injEq] at h
    cases t <;> simp [removeNone] at h
    subst h
    exact (removeNoneList_keys _).nodup hu.keys
  | cons k p ih =>
    intro kvs h
    cases t with
    | dict kvs' =>
      simp only [removeNone] at h
      rw [RTree.get_dict, removeNoneList_lookup hu.keys] at h
      cases hk : kvs'.lookup k with
      | none => simp [hk] at h
      | some t' =>
        simp only [hk, Option.bind_some] at h
        split at h
        · simp at h
        · exact ih (hu.sub hk) kvs h
    | _ => simp [removeNone, RTree.get, RTree.dict?] at h

theorem removeEmptyList_keys (kvs : List (String × RTree)) : ((removeEmptyList kvs).map Prod.fst).Sublist (kvs.map Prod.fst) := by
  induction kvs with
  | nil => simp [removeEmptyList]
  | cons q kvs ih =>
    obtain ⟨k, t⟩ := q
    simp only [removeEmptyList]
    split
    · exact ih.cons _
    · exact ih.cons_cons _

theorem removeEmptyList_lookup {k : String} {kvs : List (String × RTree)} (hn : (kvs.map Prod.fst).Nodup) :
    (removeEmptyList kvs).lookup k = (kvs.lookup k).bind fun t => if (removeEmpty t).isEmptyDict then none else some (removeEmpty t) := by
  induction kvs with
  | nil => simp [removeEmptyList]
  | cons q kvs ih =>
    obtain ⟨k', t⟩ := q
    simp only [List.map_cons, List.nodup_cons] at hn
    simp only [removeEmptyList, List.lookup_cons]
    cases hk : (k == k') with
    | true =>
      rw [beq_iff_eq] at hk
      subst hk
      split
      · rename_i h
        simp only [Option.bind_some, h, if_true]
        rw [lookup_none]
        exact fun hm => hn.1 ((removeEmptyList_keys kvs).subset hm)
      · rename_i h
        simp [h]
    | false =>
      split
      · exact ih hn.2
      · simp only [List.lookup_cons, hk]
        exact ih hn.2

theorem removeEmpty_arr (p : List String) : ∀ {t : RTree} (_ : t.Uniq) (xs : List ℚ),
    (removeEmpty t).get p = some (.arr xs) ↔ t.get p = some (.arr xs) := by
  induction p with
  | nil =>
    intro t _ xs
    rw [RTree.get_nil, RTree.get_nil]
    cases t <;> simp [removeEmpty]
  | cons k p ih =>
    intro t hu xs
    cases t with
    | dict kvs =>
      simp only [removeEmpty]
      rw [RTree.get_dict, RTree.get_dict, removeEmptyList_lookup hu.keys]
      cases hk : kvs.lookup k with
      | none => simp
      | some t =>
        have := ih (hu.sub hk) xs
        simp only [Option.bind_some]
        split
        · rename_i he
          constructor
          · intro h; simp at h
          · intro h
            rw [← this] at h
            exfalso
            generalize removeEmpty t = u at h he
            cases u with
            | dict kvs =>
              cases kvs with
              | nil => cases p with
                | nil => simp [RTree.get_nil] at h
                | cons _ _ => simp [RTree.get_dict] at h
              | cons _ _ => simp [RTree.isEmptyDict] at he
            | _ => simp [RTree.isEmptyDict] at he
        · exact this
    | _ => simp [removeEmpty]

/-- The arrays of the combined results are the concatenations of the arrays found at the same path in all segments. -/
theorem combineArrays_arr {n : Nat} {t c : RTree} {rest : List RTree} (h : combineArrays n (t :: rest) = .ok c) (hu : t.Uniq)
    (p : List String) (xs : List ℚ) : c.get p = some (.arr xs) ↔
    ∃ a as, t.get p = some (.arr a) ∧ List.Forall₂ (fun r b => r.get p = some (RTree.arr b)) rest as ∧ xs = concatLimited n (a :: as) := by
  simp only [combineArrays] at h
  obtain ⟨c', h1, h⟩ := bind_ok.1 h
  simp only [except_pure, Except.ok.injEq] at h
  subst h
  have hu' := combineRec_uniq h1 hu
  rw [removeEmpty_arr p (removeNone_uniq hu'), removeNone_arr p hu']
  constructor
  · exact combineRec_arr_conv p h1
  · rintro ⟨a, as, g1, g2, rfl⟩
    exact combineRec_arr p h1 g1 (g2.imp fun r b h => ⟨_, h, rfl⟩)

mutual
/-- No key is missing when every path of the first value exists in the others. -/
theorem combineRec_total (n : Nat) : ∀ (t : RTree) (rest : List RTree), t.Uniq →
    (∀ r ∈ rest, ∀ p, (t.get p).isSome → (r.get p).isSome) → ∃ c, combineRec n t rest = .ok c
  | .dict kvs, rest, hu, h => by
    simp only [combineRec]
    cases hd : allOf RTree.dict? rest with
    | none => exact ⟨_, rfl⟩
    | some ds =>
      have hds := allOf_iff.1 hd
      obtain ⟨vs, hvs⟩ := combineEntries_total n kvs ds hu.keys
        (fun k t hk => hu.sub hk)
        (by
          intro d hd' k t hk
          obtain ⟨r, hr, hrd⟩ := forall₂_mem_right hds hd'
          rw [dict?_some] at hrd
          subst hrd
          intro p hp
          exact h _ hr (k :: p) (by rw [RTree.get_dict, hk]; exact hp))
      exact ⟨.dict vs, by simp [hvs, Except.map]⟩
  | .arr xs, rest, _, _ => ⟨_, rfl⟩
  | .scal xs, rest, _, _ => ⟨_, rfl⟩
  | .nul, rest, _, _ => ⟨_, rfl⟩
theorem combineEntries_total (n : Nat) : ∀ (kvs : List (String × RTree)) (ds : List (List (String × RTree))), (kvs.map Prod.fst).Nodup →
    (∀ k t, kvs.lookup k = some t → t.Uniq) →
    (∀ d ∈ ds, ∀ k t, kvs.lookup k = some t → ∀ p, (t.get p).isSome → ((RTree.dict d).get (k :: p)).isSome) →
    ∃ vs, combineEntries n kvs ds = .ok vs
  | [], _, _, _, _ => ⟨_, rfl⟩
  | (k, t) :: kvs, ds, hn, hu, h => by
    simp only [List.map_cons, List.nodup_cons] at hn
    have hkt : ((k, t) :: kvs).lookup k = some t := by simp [List.lookup_cons]
    have hrest : ∃ rest, ds.mapM (fun d => dictGet d k) = .ok rest := by
      have : ∀ d ∈ ds, ∃ r, dictGet d k = .ok r := by
        intro d hd
        have := h d hd k t hkt [] (by simp [RTree.get_nil])
        rw [RTree.get_dict] at this
        cases hl : d.lookup k with
        | none => simp [hl] at this
        | some r => exact ⟨r, dictGet_ok.2 hl⟩
      clear h
      induction ds with
      | nil => exact ⟨[], rfl⟩
      | cons d ds ih =>
        obtain ⟨r, hr⟩ := this d (by simp)
        obtain ⟨rs, hrs⟩ := ih (fun d' hd' => this d' (by simp [hd']))
        exact ⟨r :: rs, by rw [List.mapM_cons, hr, hrs]; rfl⟩
    obtain ⟨rest, hrest⟩ := hrest
    obtain ⟨v, hv⟩ := combineRec_total n t rest (hu k t hkt) (by
      intro r hr p hp
      obtain ⟨d, hd, hdr⟩ := forall₂_mem_right (mapM_dictGet hrest) hr
      have := h d hd k t hkt p hp
      rw [RTree.get_dict, hdr] at this
      exact this)
    have hlook : ∀ k' t', kvs.lookup k' = some t' → ((k, t) :: kvs).lookup k' = some t' := by
      intro k' t' hk'
      have hne : (k' == k) = false := by
        rw [beq_eq_false_iff_ne]
        rintro rfl
        exact hn.1 (List.mem_map.2 ⟨_, lookup_mem hk', rfl⟩)
      rw [List.lookup_cons, hne]
      exact hk'
    obtain ⟨vs, hvs⟩ := combineEntries_total n kvs ds hn.2 (fun k' t' hk' => hu k' t' (hlook k' t' hk'))
      (fun d hd k' t' hk' => h d hd k' t' (hlook k' t' hk'))
    exact ⟨(k, v) :: vs, by simp only [combineEntries, hrest, ok_bind, hv, hvs]; rfl⟩
end

theorem combineArrays_total {n : Nat} {t : RTree} {rest : List RTree} (hu : t.Uniq)
    (h : ∀ r ∈ rest, ∀ p, (t.get p).isSome → (r.get p).isSome) : ∃ c, combineArrays n (t :: rest) = .ok c := by
  obtain ⟨c, hc⟩ := combineRec_total n t rest hu h
  exact ⟨removeEmpty (removeNone c), by simp only [combineArrays, hc]; rfl⟩

/-- Position of a value in the concatenation. -/
theorem concatLimited_get {n : Nat} (hn : 0 < n) : ∀ (xss : List (List ℚ)) (k j : Nat), k < xss.length →
    (∀ i, i + 1 < xss.length → n ≤ (xss.getD i []).length) → (k + 1 < xss.length → j < n) →
    (concatLimited n xss)[k * n + j]? = (xss.getD k [])[j]? := by
  intro xss
  induction xss with
  | nil => intro k j hk; simp at hk
  | cons xs rest ih =>
    intro k j hk hl hj
    cases rest with
    | nil =>
      simp only [List.length_cons, List.length_nil] at hk
      have : k = 0 := by omega
      subst this
      simp [concatLimited]
    | cons ys rest =>
      have hx : n ≤ xs.length := by simpa using hl 0 (by simp)
      have htake : (xs.take n).length = n := by simp [hx]
      simp only [concatLimited]
      cases k with
      | zero =>
        have hjn : j < n := hj (by simp)
        rw [Nat.zero_mul, Nat.zero_add, List.getElem?_append_left (by rw [htake]; exact hjn)]
        simp [List.getElem?_take, hjn]
      | succ k =>
        rw [List.getElem?_append_right (by rw [htake]; nlinarith), htake,
          show (k + 1) * n + j - n = k * n + j by rw [Nat.add_mul, Nat.one_mul]; omega]
        rw [ih k j (by simpa using hk) (fun i hi => by
          have := hl (i + 1) (by simpa using hi)
          simpa using this) (fun h => hj (by simpa using h))]
        simp

theorem concatLimited_length {n : Nat} : ∀ (xss : List (List ℚ)) (_ : xss ≠ []),
    (∀ i, i + 1 < xss.length → n ≤ (xss.getD i []).length) →
    (concatLimited n xss).length = (xss.length - 1) * n + (xss.getD (xss.length - 1) []).length := by
  intro xss
  induction xss with
  | nil => intro h; exact absurd rfl h
  | cons xs rest ih =>
    intro _ hl
    cases rest with
    | nil => simp [concatLimited]
    | cons ys rest =>
      have hx : n ≤ xs.length := by simpa using hl 0 (by simp)
      simp only [concatLimited, List.length_append, List.length_take, Nat.min_eq_left hx]
      rw [ih (by simp) (fun i hi => by
        have := hl (i + 1) (by simpa using hi)
        simpa using this)]
      simp only [List.length_cons, Nat.add_sub_cancel]
      rw [show (rest.length + 1) * n = rest.length * n + n by ring]
      simp only [List.getD_cons_succ]
      omega

end Flix
