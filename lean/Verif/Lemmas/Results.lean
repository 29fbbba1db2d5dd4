import Verif.Spec.Results
import Verif.Lemmas.Registry

namespace Flix

/-! ## Joining keys -/

theorem joinPath_cons {k : String} {p : List String} (h : p ≠ []) : joinPath (k :: p) = k ++ "__" ++ joinPath p := by
  cases p with
  | nil => exact absurd rfl h
  | cons a p => rfl

theorem toList_sep : ("__" : String).toList = ['_', '_'] := by decide +kernel

theorem labelIsValid_chars (l : String) :
    labelIsValid l = true ↔ l.toList.head? ≠ some '_' ∧ l.toList.getLast? ≠ some '_' ∧ ¬ ['_', '_'] <:+: l.toList := by
  simp [labelIsValid, and_assoc]

/-- A valid key before a separator cannot be confused with a longer one. -/
theorem sep_cancel_aux {k as r r' : List Char} (hk : (k ++ as).getLast? ≠ some '_') (hi : ¬ ['_', '_'] <:+: k ++ as)
    (h : '_' :: '_' :: r' = as ++ '_' :: '_' :: r) : as = [] := by
  match as, h with
  | [], _ => rfl
  | [a], h =>
    simp only [List.cons_append, List.nil_append, List.cons.injEq] at h
    exact absurd (by simp [← h.1]) hk
  | a :: b :: as, h =>
    simp only [List.cons_append, List.cons.injEq] at h
    exact absurd ⟨k, as, by simp [← h.1, ← h.2.1]⟩ hi

theorem sep_cancel {k l r r' : List Char} (hk : k.getLast? ≠ some '_') (hki : ¬ ['_', '_'] <:+: k) (hl : l.getLast? ≠ some '_')
    (hli : ¬ ['_', '_'] <:+: l) (h : k ++ '_' :: '_' :: r = l ++ '_' :: '_' :: r') : k = l ∧ r = r' := by
  have e : k = l := by
    rcases List.append_eq_append_iff.1 h with ⟨as, e, h'⟩ | ⟨as, e, h'⟩
    · subst e
      simp [sep_cancel_aux hl hli h']
    · subst e
      simp [sep_cancel_aux hk hki h']
  subst e
  have := List.append_cancel_left h
  simp only [List.cons.injEq, true_and] at this
  exact ⟨rfl, this⟩

theorem joinPath_inj : ∀ {p q : List String}, (∀ k ∈ p, labelIsValid k = true) → (∀ k ∈ q, labelIsValid k = true) → p ≠ [] → q ≠ [] →
    joinPath p = joinPath q → p = q
  | [], _, _, _, h, _, _ => absurd rfl h
  | _, [], _, _, _, h, _ => absurd rfl h
  | [k], [l], _, _, _, _, e => by simpa [joinPath] using e
  | [k], l :: b :: q, hp, _, _, _, e => by
    exfalso
    have e := congrArg String.toList e
    rw [joinPath_cons (k := l) (p := b :: q) (by simp)] at e
    simp only [joinPath.eq_2, String.toList_append, toList_sep] at e
    refine ((labelIsValid_chars k).1 (hp k (by simp))).2.2 ⟨l.toList, (joinPath (b :: q)).toList, ?_⟩
    rw [e]
  | k :: a :: p, [l], _, hq, _, _, e => by
    exfalso
    have e := congrArg String.toList e
    rw [joinPath_cons (k := k) (p := a :: p) (by simp)] at e
    simp only [joinPath.eq_2, String.toList_append, toList_sep] at e
    refine ((labelIsValid_chars l).1 (hq l (by simp))).2.2 ⟨k.toList, (joinPath (a :: p)).toList, ?_⟩
    rw [← e]
  | k :: a :: p, l :: b :: q, hp, hq, _, _, e => by
    have e := congrArg String.toList e
    rw [joinPath_cons (k := k) (p := a :: p) (by simp), joinPath_cons (k := l) (p := b :: q) (by simp)] at e
    simp only [String.toList_append, toList_sep, List.append_assoc, List.cons_append, List.nil_append] at e
    have vk := (labelIsValid_chars k).1 (hp k (by simp))
    have vl := (labelIsValid_chars l).1 (hq l (by simp))
    obtain ⟨e1, e2⟩ := sep_cancel vk.2.1 vk.2.2 vl.2.1 vl.2.2 e
    have := joinPath_inj (p := a :: p) (q := b :: q) (fun x hx => hp x (by simp [hx])) (fun x hx => hq x (by simp [hx])) (by simp) (by simp)
      (String.toList_injective e2)
    rw [String.toList_injective e1, this]

theorem LeafAt.ne_nil {kvs p v} (h : LeafAt kvs p v) : p ≠ [] := by cases h <;> simp

theorem LeafAt.keys {P : String → Prop} : ∀ {kvs p v}, LeafAt kvs p v → (∀ d, SubDict kvs d → ∀ q ∈ d, P q.1) → ∀ k ∈ p, P k := by
  intro kvs p v h
  induction h with
  | here hm _ => intro hP k hk; rw [List.mem_singleton.1 hk]; exact hP _ .self _ hm
  | under hm _ ih =>
    intro hP k hk
    rcases List.mem_cons.1 hk with rfl | hk
    · exact hP _ .self _ hm
    · exact ih (fun d hd => hP d (.under hm hd)) k hk

theorem nodup_key {α} {kvs : List (String × α)} (h : (kvs.map (·.1)).Nodup) {k : String} {v w : α} (hv : (k, v) ∈ kvs) (hw : (k, w) ∈ kvs) : v = w :=
  congrArg Prod.snd (List.inj_on_of_nodup_map h hv hw rfl)

/-- In a dictionary a path leads to one value. -/
theorem LeafAt.unique : ∀ {kvs p v w}, LeafAt kvs p v → LeafAt kvs p w → Proper kvs → v = w := by
  intro kvs p v w h
  induction h generalizing w with
  | here hm hv =>
    intro h' hP
    cases h' with
    | here hm' _ => exact nodup_key (hP _ .self) hm hm'
    | under hm' h' => exact absurd rfl h'.ne_nil
  | under hm h ih =>
    intro h' hP
    cases h' with
    | here hm' _ => exact absurd rfl h.ne_nil
    | under hm' h' =>
      have := nodup_key (hP _ .self) hm hm'
      cases this
      exact ih h' fun d hd => hP d (.under hm hd)

/-! ## Flattening -/

/-- The key of a path below a parent. -/
def under (parent : String) (p : List String) : String := if parent = "" then joinPath p else parent ++ "__" ++ joinPath p

theorem str_append_ne {a b : String} (h : a ≠ "") : a ++ b ≠ "" := by
  intro e
  apply h
  have := congrArg String.toList e
  simp only [String.toList_append, String.toList_empty, List.append_eq_nil_iff] at this
  exact String.toList_injective (by simpa using this.1)

theorem newKey_ne {parent k : String} (h : k ≠ "") : newKey parent k ≠ "" := by
  unfold newKey
  split
  · exact h
  · rename_i hp
    exact str_append_ne (str_append_ne hp)

theorem under_cons {parent k : String} {p : List String} (hk : k ≠ "") (hp : p ≠ []) : under (newKey parent k) p = under parent (k :: p) := by
  unfold under
  rw [if_neg (newKey_ne hk), joinPath_cons hp]
  unfold newKey
  split <;> simp [String.append_assoc]

theorem under_one (parent k : String) : under parent [k] = newKey parent k := rfl

/-- Nothing is invented. -/
theorem flattenItems_sound : ∀ (parent : String) (kvs : List (String × RTree)), Named kvs →
    ∀ q ∈ flattenItems parent kvs, ∃ p, LeafAt kvs p q.2 ∧ q.1 = under parent p
  | _, [], _, q, hq => by simp [flattenItems] at hq
  | parent, (k, v) :: kvs, hn, q, hq => by
    have hk : k ≠ "" := hn _ .self (k, v) (by simp)
    have up : ∀ {p w}, LeafAt kvs p w → LeafAt ((k, v) :: kvs) p w := by
      intro p w h
      cases h with
      | here hm hv => exact .here (List.mem_cons_of_mem _ hm) hv
      | under hm h => exact .under (List.mem_cons_of_mem _ hm) h
    have ht : Named kvs := by
      intro d hd
      cases hd with
      | self => exact fun q hq => hn _ .self q (List.mem_cons_of_mem _ hq)
      | under hm hd => exact hn d (.under (List.mem_cons_of_mem _ hm) hd)
    rw [flattenItems, List.mem_append] at hq
    rcases hq with hq | hq
    · cases v with
      | dict sub =>
        rw [flattenValue, flattenDict] at hq
        rcases mem_pyUpdate hq with hq | hq
        · simp at hq
        · obtain ⟨p, hp, e⟩ := flattenItems_sound (newKey parent k) sub (fun d hd => hn d (.under List.mem_cons_self hd)) q hq
          exact ⟨k :: p, .under (by simp) hp, by rw [e, under_cons hk hp.ne_nil]⟩
      | arr xs => rw [flattenValue, List.mem_singleton] at hq; subst hq; exact ⟨[k], .here (by simp) rfl, rfl⟩
      | scal x => rw [flattenValue, List.mem_singleton] at hq; subst hq; exact ⟨[k], .here (by simp) rfl, rfl⟩
      | nul => rw [flattenValue, List.mem_singleton] at hq; subst hq; exact ⟨[k], .here (by simp) rfl, rfl⟩
    · obtain ⟨p, hp, e⟩ := flattenItems_sound parent kvs ht q hq
      exact ⟨p, up hp, e⟩

theorem flattenItems_of_mem {parent k : String} {v : RTree} : ∀ {kvs : List (String × RTree)}, (k, v) ∈ kvs →
    ∀ q ∈ flattenValue (newKey parent k) v, q ∈ flattenItems parent kvs
  | (k', v') :: kvs, h, q, hq => by
    rw [flattenItems, List.mem_append]
    rcases List.mem_cons.1 h with e | h
    · cases e; exact .inl hq
    · exact .inr (flattenItems_of_mem h q hq)

/-- Every path has its key. -/
theorem flattenItems_complete {kvs p v} (h : LeafAt kvs p v) : ∀ parent, Named kvs → under parent p ∈ (flattenItems parent kvs).map (·.1) := by
  induction h with
  | @here kvs k v hm hv =>
    intro parent _
    refine List.mem_map.2 ⟨(newKey parent k, v), flattenItems_of_mem hm _ ?_, rfl⟩
    cases v <;> simp_all [flattenValue, RTree.dict?]
  | @under kvs k sub p v hm h ih =>
    intro parent hn
    have hk : k ≠ "" := hn _ .self _ hm
    have := ih (newKey parent k) fun d hd => hn d (.under hm hd)
    rw [under_cons hk h.ne_nil] at this
    have : under parent (k :: p) ∈ (flattenDict (newKey parent k) sub).map (·.1) := by
      rw [flattenDict, mem_pyUpdate_keys]
      exact .inr this
    obtain ⟨q, hq, e⟩ := List.mem_map.1 this
    exact List.mem_map.2 ⟨q, flattenItems_of_mem hm _ (by rw [flattenValue]; exact hq), e⟩

theorem pyLookup_of_mem {α} {d : List (String × α)} (h : (d.map (·.1)).Nodup) {k : String} {v : α} (hm : (k, v) ∈ d) : pyLookup d k = some v := by
  unfold pyLookup
  cases hf : d.find? (fun q => decide (q.1 = k)) with
  | none => simpa using List.find?_eq_none.1 hf _ hm
  | some q =>
    have h1 : q.1 = k := by simpa using List.find?_some hf
    have h2 := List.mem_of_find?_eq_some hf
    subst h1
    exact congrArg some (nodup_key h (v := q.2) h2 hm)

/-! ## Saving and loading -/

theorem forall₂_split {α β γ} {P : α → β → Prop} {Q : β → γ → Prop} {xs : List α} {zs : List γ}
    (h : List.Forall₂ (fun x z => ∃ y, P x y ∧ Q y z) xs zs) : ∃ ys, List.Forall₂ P xs ys ∧ List.Forall₂ Q ys zs := by
  induction h with
  | nil => exact ⟨[], .nil, .nil⟩
  | cons h _ ih =>
    obtain ⟨y, h1, h2⟩ := h
    obtain ⟨ys, g1, g2⟩ := ih
    exact ⟨y :: ys, .cons h1 g1, .cons h2 g2⟩

theorem convertList_ok {xs ys : List PyVal} : PyVal.convertList xs = .ok ys ↔ List.Forall₂ (fun x y => x.convert = .ok y) xs ys := by
  induction xs generalizing ys with
  | nil => rw [PyVal.convertList, List.forall₂_nil_left_iff]; exact ⟨fun h => by cases h; rfl, fun h => by rw [h]⟩
  | cons x xs ih =>
    rw [PyVal.convertList, List.forall₂_cons_left_iff]
    constructor
    · intro h
      obtain ⟨y, hy, h⟩ := bind_ok.1 h
      obtain ⟨zs, hzs, h⟩ := bind_ok.1 h
      cases h
      exact ⟨y, zs, hy, ih.1 hzs, rfl⟩
    · rintro ⟨y, zs, hy, hzs, rfl⟩
      rw [hy, ih.2 hzs]; rfl

theorem convertEntries_ok {xs ys : List (String × PyVal)} :
    PyVal.convertEntries xs = .ok ys ↔ List.Forall₂ (fun x y => x.1 = y.1 ∧ x.2.convert = .ok y.2) xs ys := by
  induction xs generalizing ys with
  | nil => rw [PyVal.convertEntries, List.forall₂_nil_left_iff]; exact ⟨fun h => by cases h; rfl, fun h => by rw [h]⟩
  | cons x xs ih =>
    obtain ⟨k, x⟩ := x
    rw [PyVal.convertEntries, List.forall₂_cons_left_iff]
    constructor
    · intro h
      obtain ⟨y, hy, h⟩ := bind_ok.1 h
      obtain ⟨zs, hzs, h⟩ := bind_ok.1 h
      cases h
      exact ⟨(k, y), zs, ⟨rfl, hy⟩, ih.1 hzs, rfl⟩
    · rintro ⟨⟨k', y⟩, zs, ⟨e, hy⟩, hzs, rfl⟩
      simp only at e hy
      subst e
      rw [hy, ih.2 hzs]; rfl

theorem loadList_eq (xs : List PyVal) : PyVal.loadList xs = xs.map PyVal.load := by
  induction xs with
  | nil => rfl
  | cons x xs ih => rw [PyVal.loadList, ih]; rfl

theorem loadEntries_eq (xs : List (String × PyVal)) : PyVal.loadEntries xs = xs.map fun q => (q.1, q.2.load) := by
  induction xs with
  | nil => rfl
  | cons x xs ih => obtain ⟨k, x⟩ := x; rw [PyVal.loadEntries, ih]; rfl

theorem allOf_some {α β} {f : α → Option β} {xs : List α} {ys : List β} : allOf f xs = some ys ↔ List.Forall₂ (fun x y => f x = some y) xs ys := by
  induction xs generalizing ys with
  | nil => rw [allOf, List.forall₂_nil_left_iff]; exact ⟨fun h => by cases h; rfl, fun h => by rw [h]⟩
  | cons x xs ih =>
    rw [allOf, List.forall₂_cons_left_iff]
    constructor
    · intro h
      split at h
      · rename_i b bs h1 h2
        cases h
        exact ⟨b, bs, h1, ih.1 h2, rfl⟩
      · cases h
    · rintro ⟨b, bs, h1, h2, rfl⟩
      rw [h1, ih.2 h2]

theorem allOf_none {α β} {f : α → Option β} {xs : List α} : allOf f xs = none ↔ ∃ x ∈ xs, f x = none := by
  induction xs with
  | nil => simp [allOf]
  | cons x xs ih =>
    rw [allOf]
    cases h1 : f x with
    | none => simp [h1]
    | some b =>
      cases h2 : allOf f xs with
      | none => simp only [true_iff]; obtain ⟨y, hy, e⟩ := ih.1 h2; exact ⟨y, List.mem_cons_of_mem _ hy, e⟩
      | some bs =>
        simp only [reduceCtorEq, false_iff, List.mem_cons, not_exists, not_and]
        rintro y (rfl | hy) e
        · rw [h1] at e; cases e
        · rw [ih.2 ⟨y, hy, e⟩] at h2; cases h2

theorem fmap_ok {α β} {f : α → β} {r : Except Err α} {b : β} : f <$> r = .ok b ↔ ∃ a, r = .ok a ∧ f a = b := by
  cases r with
  | error e => exact ⟨fun h => (by cases h), fun ⟨_, h, _⟩ => (by cases h)⟩
  | ok a => exact ⟨fun h => ⟨a, rfl, by cases h; rfl⟩, fun ⟨_, h, e⟩ => by cases h; subst e; rfl⟩

theorem entries_convert {v : PyVal} {xs : List PyVal} (h : Entries v xs) : v.convert = .list <$> PyVal.convertList xs := by
  cases h <;> rw [PyVal.convert]

theorem number_iff : ∀ {v j : PyVal}, v.convert = .ok j → ∀ q, NumberIs v q ↔ j.number? = some q := by
  intro v
  have seq : ∀ {v xs}, Entries v xs → ∀ {j}, v.convert = .ok j → ∀ q, NumberIs v q ↔ j.number? = some q := by
    intro v xs he j h q
    rw [entries_convert he] at h
    obtain ⟨ys, _, rfl⟩ := fmap_ok.1 h
    refine ⟨fun h => ?_, fun h => by cases h⟩
    cases he <;> cases h
  match v with
  | .none => intro j h q; rw [PyVal.convert] at h; cases h; exact ⟨fun h => (by cases h), fun h => (by cases h)⟩
  | .bool b => intro j h q; rw [PyVal.convert] at h; cases h; exact ⟨fun h => (by cases h; rfl), fun h => (by cases h; exact .bool b)⟩
  | .int z => intro j h q; rw [PyVal.convert] at h; cases h; exact ⟨fun h => (by cases h; rfl), fun h => (by cases h; exact .int z)⟩
  | .float q => intro j h q; rw [PyVal.convert] at h; cases h; exact ⟨fun h => (by cases h; rfl), fun h => (by cases h; exact .float _)⟩
  | .str s => intro j h q; rw [PyVal.convert] at h; cases h; exact ⟨fun h => (by cases h), fun h => (by cases h)⟩
  | .npInt z => intro j h q; rw [PyVal.convert] at h; cases h; exact ⟨fun h => (by cases h; rfl), fun h => (by cases h; exact .npInt z)⟩
  | .npFloat q => intro j h q; rw [PyVal.convert] at h; cases h; exact ⟨fun h => (by cases h; rfl), fun h => (by cases h; exact .npFloat _)⟩
  | .datetime s => intro j h q; rw [PyVal.convert] at h; cases h; exact ⟨fun h => (by cases h), fun h => (by cases h)⟩
  | .list xs => intro j; exact seq (.list xs)
  | .tuple xs => intro j; exact seq (.tuple xs)
  | .set xs => intro j; exact seq (.set xs)
  | .objArr xs => intro j; exact seq (.objArr xs)
  | .dict kvs =>
    intro j h q; rw [PyVal.convert] at h
    obtain ⟨ys, _, rfl⟩ := fmap_ok.1 h
    exact ⟨fun h => (by cases h), fun h => (by cases h)⟩
  | .arr xs => intro j h q; rw [PyVal.convert] at h; cases h; exact ⟨fun h => (by cases h), fun h => (by cases h)⟩
  | .series v =>
    intro j h q; rw [PyVal.convert] at h
    exact ⟨fun h' => (by cases h' with | series h' => exact (number_iff h q).1 h'), fun h' => .series ((number_iff h q).2 h')⟩
  | .other => intro j h; rw [PyVal.convert] at h; cases h

theorem load_list {js : List PyVal} (h : js ≠ []) : (PyVal.list js).load = (allOf PyVal.number? js).elim (.list (js.map PyVal.load)) .arr := by
  cases js with
  | nil => exact absurd rfl h
  | cons j js => rw [PyVal.load, loadList_eq]; simp

theorem load_floats {xs : List ℚ} (h : xs ≠ []) : (PyVal.list (xs.map .float)).load = .arr xs := by
  rw [load_list (by simpa using h), (allOf_some (ys := xs)).2]
  · rfl
  · induction xs with
    | nil => exact .nil
    | cons x xs ih =>
      refine .cons rfl ?_
      cases xs with
      | nil => exact .nil
      | cons y ys => exact ih (by simp)

theorem forall₂_of_get {α β} {R : α → β → Prop} : ∀ {xs : List α} {ys : List β}, xs.length = ys.length →
    (∀ i (h : i < xs.length) (h' : i < ys.length), R xs[i] ys[i]) → List.Forall₂ R xs ys
  | [], [], _, _ => .nil
  | x :: xs, y :: ys, hl, h => .cons (h 0 (by simp) (by simp)) (forall₂_of_get (by simpa using hl) fun i hi hi' => h (i + 1) (by simpa using hi) (by simpa using hi'))

theorem get_of_forall₂ {α β} {R : α → β → Prop} : ∀ {xs : List α} {ys : List β}, List.Forall₂ R xs ys →
    ∀ i (h : i < xs.length) (h' : i < ys.length), R xs[i] ys[i]
  | _ :: _, _ :: _, .cons h _, 0, _, _ => h
  | _ :: _, _ :: _, .cons _ h, i + 1, hi, hi' => get_of_forall₂ h i (by simpa using hi) (by simpa using hi')

theorem map_of_forall₂ {α β γ} {f : α → γ} {g : β → γ} {xs : List α} {ys : List β} (h : List.Forall₂ (fun x y => f x = g y) xs ys) : xs.map f = ys.map g := by
  induction h with
  | nil => rfl
  | cons h _ ih => rw [List.map_cons, List.map_cons, h, ih]

theorem forall₂_mem_imp {α β} {R S : α → β → Prop} {xs : List α} {ys : List β} (h : List.Forall₂ R xs ys) (hi : ∀ x ∈ xs, ∀ y, R x y → S x y) :
    List.Forall₂ S xs ys := by
  induction h with
  | nil => exact .nil
  | cons h _ ih => exact .cons (hi _ (by simp) _ h) (ih fun x hx => hi x (by simp [hx]))

/-- Loaded sequences. -/
theorem same_seq {v : PyVal} {xs js : List PyVal} (he : Entries v xs) (hc : List.Forall₂ (fun x y => x.convert = .ok y) xs js)
    (ih : List.Forall₂ (fun x y => Same x y.load) xs js) : Same v (PyVal.list js).load := by
  by_cases hj : js = []
  · subst hj
    cases hc
    exact .entries he (.inl rfl) rfl fun i h => absurd h (by simp)
  have hx : xs ≠ [] := by rintro rfl; cases hc; exact hj rfl
  rw [load_list hj]
  cases ha : allOf PyVal.number? js with
  | some qs =>
    refine .numbers he hx ?_
    have := allOf_some.1 ha
    clear ha ih he hj hx
    induction hc generalizing qs with
    | nil => cases this; exact .nil
    | cons h _ ih =>
      cases this with
      | cons h1 h2 => exact .cons ((number_iff h _).2 h1) (ih _ h2)
  | none =>
    obtain ⟨j, hj', hn⟩ := allOf_none.1 ha
    obtain ⟨x, hx', hcx⟩ := forall₂_mem_right hc hj'
    refine .entries he (.inr ⟨x, hx', fun q hq => ?_⟩) (by simpa using hc.length_eq) fun i h h' => ?_
    · rw [(number_iff hcx q).1 hq] at hn; cases hn
    · have := get_of_forall₂ ih i h (by simpa using h')
      simpa using this

theorem same_of_convert : ∀ (v : PyVal) {j : PyVal}, v.convert = .ok j → Same v j.load
  | .none, j, h => by rw [PyVal.convert] at h; cases h; rw [PyVal.load] <;> first | exact .none | simp
  | .bool b, j, h => by rw [PyVal.convert] at h; cases h; rw [PyVal.load] <;> first | exact .bool b | simp
  | .int z, j, h => by rw [PyVal.convert] at h; cases h; rw [PyVal.load] <;> first | exact .int z | simp
  | .float q, j, h => by rw [PyVal.convert] at h; cases h; rw [PyVal.load] <;> first | exact .float q | simp
  | .str s, j, h => by rw [PyVal.convert] at h; cases h; rw [PyVal.load] <;> first | exact .str s | simp
  | .npInt z, j, h => by rw [PyVal.convert] at h; cases h; rw [PyVal.load] <;> first | exact .npInt z | simp
  | .npFloat q, j, h => by rw [PyVal.convert] at h; cases h; rw [PyVal.load] <;> first | exact .npFloat q | simp
  | .datetime s, j, h => by rw [PyVal.convert] at h; cases h; rw [PyVal.load] <;> first | exact .datetime s | simp
  | .arr xs, j, h => by
    rw [PyVal.convert] at h; cases h
    by_cases hx : xs = []
    · subst hx; rw [List.map_nil, PyVal.load]; exact .noEntries
    · rw [load_floats hx]; exact .arr hx
  | .series v, j, h => by rw [PyVal.convert] at h; exact .series (same_of_convert v h)
  | .other, j, h => by rw [PyVal.convert] at h; cases h
  | .dict kvs, j, h => by
    rw [PyVal.convert] at h
    obtain ⟨js, hjs, rfl⟩ := fmap_ok.1 h
    have hjs := convertEntries_ok.1 hjs
    have ih : List.Forall₂ (fun x y => Same x.2 y.2.load) kvs js := forall₂_mem_imp hjs fun x hx y hxy => same_of_convert x.2 hxy.2
    rw [PyVal.load, loadEntries_eq]
    refine .dict ?_ fun i h h' => ?_
    · rw [List.map_map]
      exact map_of_forall₂ (hjs.imp fun _ _ h => h.1)
    · simpa using get_of_forall₂ ih i h (by simpa using h')
  | .list xs, j, h => by
    rw [PyVal.convert] at h
    obtain ⟨js, hjs, rfl⟩ := fmap_ok.1 h
    exact same_seq (.list xs) (convertList_ok.1 hjs) (forall₂_mem_imp (convertList_ok.1 hjs) fun x hx y hxy => same_of_convert x hxy)
  | .tuple xs, j, h => by
    rw [PyVal.convert] at h
    obtain ⟨js, hjs, rfl⟩ := fmap_ok.1 h
    exact same_seq (.tuple xs) (convertList_ok.1 hjs) (forall₂_mem_imp (convertList_ok.1 hjs) fun x hx y hxy => same_of_convert x hxy)
  | .set xs, j, h => by
    rw [PyVal.convert] at h
    obtain ⟨js, hjs, rfl⟩ := fmap_ok.1 h
    exact same_seq (.set xs) (convertList_ok.1 hjs) (forall₂_mem_imp (convertList_ok.1 hjs) fun x hx y hxy => same_of_convert x hxy)
  | .objArr xs, j, h => by
    rw [PyVal.convert] at h
    obtain ⟨js, hjs, rfl⟩ := fmap_ok.1 h
    exact same_seq (.objArr xs) (convertList_ok.1 hjs) (forall₂_mem_imp (convertList_ok.1 hjs) fun x hx y hxy => same_of_convert x hxy)
termination_by v => sizeOf v
decreasing_by
  all_goals simp_wf
  all_goals first | (have := List.sizeOf_lt_of_mem hx; omega) | (obtain ⟨k, w⟩ := x; have := List.sizeOf_lt_of_mem hx; simp at this ⊢; omega) | omega

theorem number_convert {v : PyVal} {q : ℚ} (h : NumberIs v q) : ∃ j, v.convert = .ok j ∧ j.number? = some q := by
  induction h with
  | series _ ih => obtain ⟨j, h1, h2⟩ := ih; exact ⟨j, by rw [PyVal.convert]; exact h1, h2⟩
  | bool b => exact ⟨_, PyVal.convert.eq_4 _, rfl⟩
  | int z => exact ⟨_, PyVal.convert.eq_5 _, rfl⟩
  | float q => exact ⟨_, PyVal.convert.eq_6 _, rfl⟩
  | npInt z => exact ⟨_, PyVal.convert.eq_1 _, rfl⟩
  | npFloat q => exact ⟨_, PyVal.convert.eq_2 _, rfl⟩

theorem convert_of_same {v w : PyVal} (h : Same v w) : ∃ j, v.convert = .ok j ∧ j.load = w := by
  induction h with
  | none => exact ⟨_, PyVal.convert.eq_3, by rw [PyVal.load] <;> simp⟩
  | bool b => exact ⟨_, PyVal.convert.eq_4 _, by rw [PyVal.load] <;> simp⟩
  | int b => exact ⟨_, PyVal.convert.eq_5 _, by rw [PyVal.load] <;> simp⟩
  | float b => exact ⟨_, PyVal.convert.eq_6 _, by rw [PyVal.load] <;> simp⟩
  | str b => exact ⟨_, PyVal.convert.eq_7 _, by rw [PyVal.load] <;> simp⟩
  | npInt b => exact ⟨_, PyVal.convert.eq_1 _, by rw [PyVal.load] <;> simp⟩
  | npFloat b => exact ⟨_, PyVal.convert.eq_2 _, by rw [PyVal.load] <;> simp⟩
  | datetime b => exact ⟨_, PyVal.convert.eq_8 _, by rw [PyVal.load] <;> simp⟩
  | series _ ih => obtain ⟨j, h1, h2⟩ := ih; exact ⟨j, by rw [PyVal.convert]; exact h1, h2⟩
  | arr hx => exact ⟨_, by rw [PyVal.convert], load_floats hx⟩
  | noEntries => exact ⟨_, by rw [PyVal.convert], by rw [List.map_nil, PyVal.load]⟩
  | @dict kvs kws hk _ ih =>
    have hl : kvs.length = kws.length := by simpa using congrArg List.length hk
    have hk' : ∀ i (h : i < kvs.length) (h' : i < kws.length), kvs[i].1 = kws[i].1 := by
      intro i h h'
      have : (kvs.map (·.1))[i]'(by simpa using h) = (kws.map (·.1))[i]'(by simpa using h') := by simp only [hk]
      simpa using this
    have h2 : List.Forall₂ (fun (x z : String × PyVal) => ∃ y : String × PyVal, (x.1 = y.1 ∧ x.2.convert = .ok y.2) ∧ (y.1, y.2.load) = z) kvs kws := by
      refine forall₂_of_get hl fun i h h' => ?_
      obtain ⟨j, h1, h2⟩ := ih i h h'
      exact ⟨(kvs[i].1, j), ⟨rfl, h1⟩, by rw [h2, hk' i h h']⟩
    obtain ⟨js, h1, h2⟩ := forall₂_split h2
    refine ⟨.dict js, by rw [PyVal.convert, convertEntries_ok.2 h1]; rfl, ?_⟩
    rw [PyVal.load, loadEntries_eq]
    congr 1
    rw [map_of_forall₂ (g := id) h2, List.map_id]
  | @numbers v xs qs he hx hn =>
    have h2 := List.Forall₂.imp (fun _ _ h => number_convert h) hn
    obtain ⟨js, h1, h2⟩ := forall₂_split h2
    refine ⟨.list js, by rw [entries_convert he, convertList_ok.2 h1]; rfl, ?_⟩
    rw [load_list, allOf_some.2 h2]
    · rfl
    · rintro rfl; cases h1; exact hx rfl
  | @entries v xs ys he hx hl _ ih =>
    obtain ⟨js, h1, h2⟩ := forall₂_split (P := fun x y => x.convert = .ok y) (Q := fun y z => y.load = z) (forall₂_of_get hl ih)
    refine ⟨.list js, by rw [entries_convert he, convertList_ok.2 h1]; rfl, ?_⟩
    have e : js.map PyVal.load = ys := by rw [map_of_forall₂ (g := id) h2, List.map_id]
    by_cases hj : js = []
    · subst hj; rw [PyVal.load, ← e]; rfl
    · rcases hx with rfl | ⟨x, hx, hq⟩
      · cases h1; exact absurd rfl hj
      · obtain ⟨j, hj', hc⟩ := forall₂_mem_left h1 hx
        rw [load_list hj, allOf_none.2 ⟨j, hj', ?_⟩, e]
        · rfl
        · cases hn : j.number? with
          | none => rfl
          | some q => exact absurd ((number_iff hc q).2 hn) (hq q)

end Flix
