/-
Finite maps: the model of a Substrate `StorageMap`.
A map is a list of key/value pairs without repeated keys.
-/

/-- A finite map from `K` to `V` (models `StorageMap<_, _, K, V>`; absence is `none`). -/
structure FMap (K V : Type) where
  /-- the entries -/
  l : List (K × V)
  /-- no key occurs twice -/
  nd : (l.map Prod.fst).Nodup

set_option linter.unusedSectionVars false

namespace FMap
variable {K V : Type} [DecidableEq K]

/-- first entry with key `k` -/
def look (k : K) : List (K × V) → Option V
  | [] => none
  | (k', v) :: t => if k' = k then some v else look k t

/-- all entries but those with key `k` -/
def del (k : K) : List (K × V) → List (K × V)
  | [] => []
  | (k', v) :: t => if k' = k then del k t else (k', v) :: del k t

/-- the empty map -/
def empty : FMap K V := ⟨[], by simp⟩

instance : Inhabited (FMap K V) := ⟨empty⟩

/-- `StorageMap::get` -/
def get (m : FMap K V) (k : K) : Option V := look k m.l

theorem mem_del {k x : K} {l : List (K × V)} :
    x ∈ (del k l).map Prod.fst ↔ x ≠ k ∧ x ∈ l.map Prod.fst := by
  induction l with
  | nil => simp [del]
  | cons p t ih =>
    obtain ⟨k', v⟩ := p
    by_cases h : k' = k
    · subst h
      simp only [del, if_true, ih, List.map_cons, List.mem_cons]
      grind
    · simp only [del, h, if_false, List.map_cons, List.mem_cons, ih]
      grind

theorem nodup_del {k : K} {l : List (K × V)} (h : (l.map Prod.fst).Nodup) :
    ((del k l).map Prod.fst).Nodup := by
  induction l with
  | nil => simp [del]
  | cons p t ih =>
    obtain ⟨k', v⟩ := p
    simp only [List.map_cons, List.nodup_cons] at h
    by_cases hk : k' = k
    · simp only [del, hk, if_true]; exact ih h.2
    · simp only [del, hk, if_false, List.map_cons, List.nodup_cons]
      exact ⟨fun hm => h.1 (mem_del.1 hm).2, ih h.2⟩

/-- `StorageMap::remove` -/
def erase (m : FMap K V) (k : K) : FMap K V := ⟨del k m.l, nodup_del m.nd⟩

/-- `StorageMap::insert` -/
def insert (m : FMap K V) (k : K) (v : V) : FMap K V :=
  ⟨(k, v) :: del k m.l, by
    simp only [List.map_cons, List.nodup_cons]
    exact ⟨fun h => (mem_del.1 h).1 rfl, nodup_del m.nd⟩⟩

/-- keep the entries whose key satisfies `p` (`clear_prefix` removes the others) -/
def filterKeys (m : FMap K V) (p : K → Bool) : FMap K V :=
  ⟨m.l.filter (fun x => p x.1), List.Nodup.sublist (List.filter_sublist.map _) m.nd⟩

theorem look_filter (p : K → Bool) (k : K) (l : List (K × V)) :
    look k (l.filter (fun x => p x.1)) = if p k then look k l else none := by
  induction l with
  | nil => simp [look]
  | cons x t ih =>
    obtain ⟨k', v⟩ := x
    by_cases hp : p k' <;> by_cases hk : k' = k <;> simp_all [look]

theorem get_filterKeys (m : FMap K V) (p : K → Bool) (k : K) :
    (m.filterKeys p).get k = if p k then m.get k else none := look_filter p k m.l

/-- number of entries -/
def card (m : FMap K V) : Nat := m.l.length

/-- insert or remove -/
def set (m : FMap K V) (k : K) : Option V → FMap K V
  | some v => m.insert k v
  | none => m.erase k

/-- sum of `f` over all entries -/
def sumBy (f : K → V → Nat) (m : FMap K V) : Nat := (m.l.map fun p => f p.1 p.2).sum

/-- keys -/
def keys (m : FMap K V) : List K := m.l.map Prod.fst

theorem look_del (k k' : K) (l : List (K × V)) :
    look k' (del k l) = if k' = k then none else look k' l := by
  induction l with
  | nil => simp [del, look]
  | cons p t ih =>
    obtain ⟨a, v⟩ := p
    by_cases h : a = k
    · subst h
      simp only [del, if_true, ih, look]
      grind
    · simp only [del, h, if_false, look, ih]
      grind

@[simp, grind =] theorem get_empty (k : K) : (empty : FMap K V).get k = none := rfl

@[grind =] theorem get_insert (m : FMap K V) (k k' : K) (v : V) :
    (m.insert k v).get k' = if k' = k then some v else m.get k' := by
  simp only [get, insert, look, look_del]
  grind

@[simp] theorem get_insert_self (m : FMap K V) (k : K) (v : V) :
    (m.insert k v).get k = some v := by simp [get_insert]

theorem get_insert_ne (m : FMap K V) {k k' : K} (v : V) (h : k' ≠ k) :
    (m.insert k v).get k' = m.get k' := by simp [get_insert, h]

@[grind =] theorem get_erase (m : FMap K V) (k k' : K) :
    (m.erase k).get k' = if k' = k then none else m.get k' := by
  simp only [get, erase, look_del]

@[simp] theorem get_erase_self (m : FMap K V) (k : K) : (m.erase k).get k = none := by
  simp [get_erase]

theorem get_erase_ne (m : FMap K V) {k k' : K} (h : k' ≠ k) :
    (m.erase k).get k' = m.get k' := by simp [get_erase, h]

@[grind =] theorem get_set (m : FMap K V) (k k' : K) (o : Option V) :
    (m.set k o).get k' = if k' = k then o else m.get k' := by
  cases o <;> simp [set, get_insert, get_erase]

@[simp] theorem sumBy_empty (f : K → V → Nat) : (empty : FMap K V).sumBy f = 0 := rfl

theorem sumBy_insert (f : K → V → Nat) (m : FMap K V) (k : K) (v : V) :
    (m.insert k v).sumBy f = f k v + (m.erase k).sumBy f := by
  simp [sumBy, insert, erase]

theorem del_of_not_mem {k : K} {l : List (K × V)} (h : k ∉ l.map Prod.fst) : del k l = l := by
  induction l with
  | nil => rfl
  | cons p t ih =>
    obtain ⟨a, v⟩ := p
    simp only [List.map_cons, List.mem_cons, not_or] at h
    simp [del, Ne.symm h.1, ih h.2]

theorem sumBy_split (f : K → V → Nat) (m : FMap K V) (k : K) :
    m.sumBy f = (match m.get k with | some v => f k v | none => 0) + (m.erase k).sumBy f := by
  obtain ⟨l, nd⟩ := m
  simp only [sumBy, get, erase]
  induction l with
  | nil => simp [look, del]
  | cons p t ih =>
    obtain ⟨a, v⟩ := p
    simp only [List.map_cons, List.nodup_cons] at nd
    by_cases h : a = k
    · subst h
      simp [look, del, del_of_not_mem nd.1]
    · have := ih nd.2
      simp only [look, del, h, if_false, List.map_cons, List.sum_cons]
      omega

theorem sumBy_le_of_get {f : K → V → Nat} {m : FMap K V} {k : K} {v : V} (h : m.get k = some v) :
    f k v ≤ m.sumBy f := by
  rw [sumBy_split f m k, h]; simp

theorem get_some_iff_mem {m : FMap K V} {k : K} {v : V} : m.get k = some v ↔ (k, v) ∈ m.l := by
  obtain ⟨l, nd⟩ := m
  simp only [get]
  induction l with
  | nil => simp [look]
  | cons p t ih =>
    obtain ⟨a, v'⟩ := p
    simp only [List.map_cons, List.nodup_cons] at nd
    have := ih nd.2
    by_cases h : a = k
    · subst h
      simp only [look, if_true, List.mem_cons, Prod.mk.injEq, true_and, Option.some.injEq]
      constructor
      · intro h; exact Or.inl h.symm
      · rintro (h | h)
        · exact h.symm
        · exact absurd (List.mem_map.2 ⟨_, h, rfl⟩) nd.1
    · simp only [look, h, if_false, this, List.mem_cons, Prod.mk.injEq]
      grind

theorem get_ne_none_iff_mem_keys {m : FMap K V} {k : K} : m.get k ≠ none ↔ k ∈ m.keys := by
  constructor
  · intro h
    obtain ⟨v, hv⟩ := Option.ne_none_iff_exists'.1 h
    exact List.mem_map.2 ⟨(k, v), get_some_iff_mem.1 hv, rfl⟩
  · intro h
    obtain ⟨⟨a, v⟩, h1, h2⟩ := List.mem_map.1 h
    simp only at h2; subst h2
    rw [get_some_iff_mem.2 h1]; simp

/-- pointwise equal contributions give equal sums over the same map -/
theorem sumBy_congr {f g : K → V → Nat} {m : FMap K V}
    (h : ∀ k v, m.get k = some v → f k v = g k v) : m.sumBy f = m.sumBy g := by
  simp only [sumBy]
  congr 1
  apply List.map_congr_left
  intro p hp
  exact h p.1 p.2 (get_some_iff_mem.2 hp)

theorem sumBy_le_sumBy {f g : K → V → Nat} {m : FMap K V}
    (h : ∀ k v, m.get k = some v → f k v ≤ g k v) : m.sumBy f ≤ m.sumBy g := by
  obtain ⟨l, nd⟩ := m
  have h' : ∀ p ∈ l, f p.1 p.2 ≤ g p.1 p.2 := fun p hp => h p.1 p.2 (get_some_iff_mem.2 hp)
  clear h
  simp only [sumBy]
  clear nd
  induction l with
  | nil => simp
  | cons p t ih =>
    have h1 := h' p (by simp)
    have h2 := ih (fun q hq => h' q (by simp [hq]))
    simp only [List.map_cons, List.sum_cons]
    omega

theorem sumBy_zero {f : K → V → Nat} {m : FMap K V}
    (h : ∀ k v, m.get k = some v → f k v = 0) : m.sumBy f = 0 := by
  rw [sumBy_congr (g := fun _ _ => 0) h]
  obtain ⟨l, nd⟩ := m
  simp only [sumBy]
  clear h nd
  induction l with
  | nil => simp
  | cons p t ih => simpa using ih

theorem sumBy_add {f g : K → V → Nat} {m : FMap K V} :
    m.sumBy (fun k v => f k v + g k v) = m.sumBy f + m.sumBy g := by
  obtain ⟨l, nd⟩ := m
  simp only [sumBy]
  clear nd
  induction l with
  | nil => simp
  | cons p t ih => simp only [List.map_cons, List.sum_cons]; omega

end FMap
