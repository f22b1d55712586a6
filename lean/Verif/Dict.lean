/-!
# Python dictionaries

Insertion-ordered dictionaries as association lists.
-/

namespace Tomato

/-- A python `dict`: insertion-ordered association list. -/
abbrev Dict (K V : Type) := List (K × V)

namespace Dict

variable {K V : Type} [DecidableEq K]

/-- `d.get(k)`. -/
def get? (d : Dict K V) (k : K) : Option V :=
  match d with
  | [] => none
  | (k', v) :: rest => if k' = k then some v else get? rest k

/-- `k in d`. -/
def mem (d : Dict K V) (k : K) : Bool := (get? d k).isSome

/-- `d[k] = v`: overwrite in place or append. -/
def set (d : Dict K V) (k : K) (v : V) : Dict K V :=
  match d with
  | [] => [(k, v)]
  | (k', v') :: rest => if k' = k then (k', v) :: rest else (k', v') :: set rest k v

/-- `d.pop(k)` (result discarded). -/
def erase (d : Dict K V) (k : K) : Dict K V := d.filter (fun kv => decide (kv.1 ≠ k))

/-- `d.keys()`. -/
def keys (d : Dict K V) : List K := d.map (·.1)

/-- `d.values()`. -/
def values (d : Dict K V) : List V := d.map (·.2)

/-- `{k: v for (k, v) in xs}`. -/
def ofList (xs : List (K × V)) : Dict K V := xs.foldl (fun d kv => set d kv.1 kv.2) []

/-- `d.update(e)`. -/
def update (d e : Dict K V) : Dict K V := e.foldl (fun d kv => set d kv.1 kv.2) d

/-- `d == e` for dictionaries: same keys with the same values, order irrelevant. -/
def eqv [DecidableEq V] (d e : Dict K V) : Bool :=
  d.all (fun kv => decide (get? e kv.1 = get? d kv.1)) &&
  e.all (fun kv => decide (get? d kv.1 = get? e kv.1))

@[simp] theorem get?_nil (k : K) : get? ([] : Dict K V) k = none := rfl

theorem get?_set (d : Dict K V) (k k' : K) (v : V) :
    get? (set d k v) k' = if k = k' then some v else get? d k' := by
  induction d with
  | nil => simp [set, get?]
  | cons kv rest ih =>
    obtain ⟨k1, v1⟩ := kv
    simp only [set]
    split
    · next h =>
      subst h
      simp only [get?]
      split <;> rfl
    · next h =>
      simp only [get?, ih]
      split
      · next h2 =>
        subst h2
        split
        · next h3 => exact absurd h3.symm h
        · rfl
      · rfl

@[simp] theorem get?_set_self (d : Dict K V) (k : K) (v : V) : get? (set d k v) k = some v := by
  simp [get?_set]

theorem get?_set_ne (d : Dict K V) {k k' : K} (v : V) (h : k ≠ k') :
    get? (set d k v) k' = get? d k' := by
  simp [get?_set, h]

theorem get?_erase (d : Dict K V) (k k' : K) :
    get? (erase d k) k' = if k' = k then none else get? d k' := by
  induction d with
  | nil => simp [erase, get?]
  | cons kv rest ih =>
    obtain ⟨k1, v1⟩ := kv
    simp only [erase, List.filter_cons] at ih ⊢
    by_cases h : k1 = k
    · subst h
      simp only [ne_eq, not_true_eq_false, decide_false, Bool.false_eq_true, if_false, ih, get?]
      by_cases h2 : k' = k1
      · simp [h2]
      · simp [h2, Ne.symm h2]
    · simp only [ne_eq, h, not_false_eq_true, decide_true, if_true, get?]
      by_cases h2 : k1 = k'
      · subst h2; simp [h]
      · simp only [h2, if_false]; exact ih

theorem get?_some_mem {d : Dict K V} {k : K} {v : V} (h : get? d k = some v) : (k, v) ∈ d := by
  induction d with
  | nil => simp [get?] at h
  | cons kv rest ih =>
    obtain ⟨k1, v1⟩ := kv
    simp only [get?] at h
    split at h
    · next h1 => subst h1; simp at h; simp [h]
    · simp [ih h]

theorem get?_isSome_of_mem {d : Dict K V} {k : K} {v : V} (h : (k, v) ∈ d) :
    (get? d k).isSome = true := by
  induction d with
  | nil => simp at h
  | cons kv rest ih =>
    obtain ⟨k1, v1⟩ := kv
    simp only [get?]
    split
    · rfl
    · next hne =>
      simp only [List.mem_cons, Prod.mk.injEq] at h
      rcases h with h | h
      · exact absurd h.1.symm hne
      · exact ih h

theorem mem_keys_iff {d : Dict K V} {k : K} : k ∈ keys d ↔ (get? d k).isSome = true := by
  constructor
  · intro h
    simp only [keys, List.mem_map] at h
    obtain ⟨⟨k', v⟩, hm, rfl⟩ := h
    exact get?_isSome_of_mem hm
  · intro h
    obtain ⟨v, hv⟩ := Option.isSome_iff_exists.mp h
    simp only [keys, List.mem_map]
    exact ⟨(k, v), get?_some_mem hv, rfl⟩

theorem mem_iff {d : Dict K V} {k : K} : mem d k = true ↔ k ∈ keys d := by
  rw [mem_keys_iff]; rfl

/-- Keys of a dictionary built by `set` are unique. -/
theorem keys_set (d : Dict K V) (k : K) (v : V) :
    keys (set d k v) = if k ∈ keys d then keys d else keys d ++ [k] := by
  induction d with
  | nil => simp [set, keys]
  | cons kv rest ih =>
    obtain ⟨k1, v1⟩ := kv
    simp only [set]
    split
    · next h => subst h; simp [keys]
    · next h =>
      simp only [keys, List.map_cons, List.mem_cons] at ih ⊢
      rw [ih]
      by_cases h2 : k ∈ List.map (·.1) rest
      · simp [h2]
      · simp [h2, Ne.symm h]

theorem nodup_keys_set {d : Dict K V} (h : (keys d).Nodup) (k : K) (v : V) :
    (keys (set d k v)).Nodup := by
  rw [keys_set]
  split
  · exact h
  · next hk =>
    rw [List.nodup_append]
    refine ⟨h, by simp, ?_⟩
    intro a ha b hb
    simp at hb
    subst hb
    intro hab
    subst hab
    exact hk ha

theorem get?_of_mem_nodup {d : Dict K V} (h : (keys d).Nodup) {k : K} {v : V}
    (hm : (k, v) ∈ d) : get? d k = some v := by
  induction d with
  | nil => simp at hm
  | cons kv rest ih =>
    obtain ⟨k1, v1⟩ := kv
    simp only [keys, List.map_cons, List.nodup_cons] at h
    simp only [List.mem_cons, Prod.mk.injEq] at hm
    simp only [get?]
    rcases hm with ⟨rfl, rfl⟩ | hm
    · simp
    · have : k1 ≠ k := by
        intro he
        subst he
        exact h.1 (List.mem_map.mpr ⟨(k1, v), hm, rfl⟩)
      simp [this, ih h.2 hm]

theorem eqv_iff [DecidableEq V] {d e : Dict K V} :
    eqv d e = true ↔ ∀ k, get? d k = get? e k := by
  constructor
  · intro h k
    simp only [eqv, Bool.and_eq_true, List.all_eq_true, decide_eq_true_eq] at h
    cases hd : get? d k with
    | some v =>
      have := h.1 (k, v) (get?_some_mem hd)
      simp only at this
      rw [this, hd]
    | none =>
      cases he : get? e k with
      | none => rfl
      | some v =>
        have := h.2 (k, v) (get?_some_mem he)
        simp only at this
        rw [hd, he] at this
        exact this
  · intro h
    simp only [eqv, Bool.and_eq_true, List.all_eq_true, decide_eq_true_eq]
    exact ⟨fun kv _ => (h kv.1).symm, fun kv _ => h kv.1⟩

end Dict

end Tomato
