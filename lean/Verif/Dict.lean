import Verif.Str
/-
Python `dict` as an insertion-ordered association list.  A transcription of
documented CPython behaviour (assignment keeps the position of an existing key,
a new key goes last); part of the trusted base, not of /repo.
-/
namespace Cheetah

/-- A Python dict with keys `α` and values `β`, in insertion order.
Python's `dict`; models no code in /repo (used for CacheStore.py 42-71, SettingsManager.py 25-43). -/
abbrev Dict (α β : Type) := List (α × β)

namespace Dict
variable {α β : Type} [DecidableEq α]

/-- `d.get(k)`.
Python's `dict`; models no code in /repo (used for CacheStore.py 42-71, SettingsManager.py 25-43). -/
def get : Dict α β → α → Option β
  | [], _ => none
  | (k', v) :: d, k => if k = k' then some v else get d k

/-- `d[k] = v`.
Python's `dict`; models no code in /repo (used for CacheStore.py 42-71, SettingsManager.py 25-43). -/
def set : Dict α β → α → β → Dict α β
  | [], k, v => [(k, v)]
  | (k', v') :: d, k, v => if k = k' then (k', v) :: d else (k', v') :: set d k v

/-- `del d[k]`, for a key that is present (no effect otherwise).
Python's `dict`; models no code in /repo (used for CacheStore.py 42-71, SettingsManager.py 25-43). -/
def del : Dict α β → α → Dict α β
  | [], _ => []
  | (k', v) :: d, k => if k = k' then d else (k', v) :: del d k

/-- `list(d.keys())`.
Python's `dict`; models no code in /repo (used for CacheStore.py 42-71, SettingsManager.py 25-43). -/
def keys (d : Dict α β) : List α := d.map (·.1)

theorem get_set (d : Dict α β) (k k' : α) (v : β) :
    (d.set k v).get k' = if k' = k then some v else d.get k' := by
  induction d with
  | nil => simp only [set, get]
  | cons x d ih =>
    obtain ⟨j, w⟩ := x
    by_cases h : k = j
    · subst h; simp only [set, if_true, get]; split <;> rfl
    · simp only [set, h, if_false, get, ih]
      by_cases h1 : k' = j
      · subst h1; simp [Ne.symm h]
      · simp [h1]

theorem get_set_self (d : Dict α β) (k : α) (v : β) : (d.set k v).get k = some v := by
  simp [get_set]

theorem get_set_ne (d : Dict α β) {k k' : α} (v : β) (h : k' ≠ k) : (d.set k v).get k' = d.get k' := by
  simp [get_set, h]

theorem get_eq_none (d : Dict α β) (k : α) : d.get k = none ↔ k ∉ d.keys := by
  induction d with
  | nil => simp [get, keys]
  | cons x d ih =>
    obtain ⟨j, w⟩ := x
    simp only [get, keys, List.map_cons, List.mem_cons, not_or]
    by_cases h : k = j
    · simp [h]
    · simp only [h, if_false, not_false_eq_true, true_and]; exact ih

theorem get_isSome (d : Dict α β) (k : α) : (d.get k).isSome ↔ k ∈ d.keys := by
  have := get_eq_none d k
  cases h : d.get k with
  | none => simp [this.1 h]
  | some v =>
    simp
    rw [h] at this
    simp at this
    exact this

theorem get_mem (d : Dict α β) {k : α} {v : β} (h : d.get k = some v) : (k, v) ∈ d := by
  induction d with
  | nil => simp [get] at h
  | cons x d ih =>
    obtain ⟨j, w⟩ := x
    simp only [get] at h
    split at h
    · next hk => cases h; subst hk; simp
    · exact List.mem_cons_of_mem _ (ih h)

theorem get_of_mem_nodup (d : Dict α β) (hn : d.keys.Nodup) {k : α} {v : β} (h : (k, v) ∈ d) :
    d.get k = some v := by
  induction d with
  | nil => simp at h
  | cons x d ih =>
    obtain ⟨j, w⟩ := x
    simp only [keys, List.map_cons, List.nodup_cons] at hn
    simp only [List.mem_cons] at h
    rcases h with h | h
    · cases h; simp [get]
    · have : k ≠ j := by
        rintro rfl
        exact hn.1 (List.mem_map.2 ⟨(k, v), h, rfl⟩)
      simp only [get, this, if_false]
      exact ih hn.2 h

theorem get_del (d : Dict α β) (hn : d.keys.Nodup) (k k' : α) :
    (d.del k).get k' = if k' = k then none else d.get k' := by
  induction d with
  | nil => simp [del, get]
  | cons x d ih =>
    obtain ⟨j, w⟩ := x
    simp only [keys, List.map_cons, List.nodup_cons] at hn
    by_cases h : k = j
    · subst h
      simp only [del, if_true, get]
      by_cases h1 : k' = k
      · subst h1; simp only [if_true]; exact (get_eq_none d k').2 hn.1
      · simp [h1]
    · simp only [del, h, if_false, get, ih hn.2]
      by_cases h1 : k' = j
      · subst h1; simp [Ne.symm h]
      · simp [h1]

theorem get_del_ne (d : Dict α β) {k k' : α} (h : k' ≠ k) : (d.del k).get k' = d.get k' := by
  induction d with
  | nil => simp [del, get]
  | cons x d ih =>
    obtain ⟨j, w⟩ := x
    by_cases h0 : k = j
    · subst h0; simp [del, get, h]
    · simp only [del, h0, if_false, get, ih]

theorem keys_set (d : Dict α β) (k : α) (v : β) :
    (d.set k v).keys = if k ∈ d.keys then d.keys else d.keys ++ [k] := by
  induction d with
  | nil => simp [set, keys]
  | cons x d ih =>
    obtain ⟨j, w⟩ := x
    by_cases h : k = j
    · subst h; simp [set, keys]
    · have hk : (set ((j, w) :: d) k v).keys = j :: keys (set d k v) := by simp [set, h, keys]
      have hj : keys ((j, w) :: d) = j :: keys d := rfl
      rw [hk, hj, ih]
      by_cases hm : k ∈ keys d
      · rw [if_pos hm, if_pos (List.mem_cons_of_mem _ hm)]
      · rw [if_neg hm, if_neg (by simp [h, hm])]; rfl

theorem mem_keys_set (d : Dict α β) (k k' : α) (v : β) :
    k' ∈ (d.set k v).keys ↔ k' = k ∨ k' ∈ d.keys := by
  rw [keys_set]
  split
  · next h =>
    refine ⟨Or.inr, ?_⟩
    rintro (rfl | h')
    · exact h
    · exact h'
  · rw [List.mem_append, List.mem_singleton]; exact Or.comm

theorem nodup_set (d : Dict α β) (k : α) (v : β) (h : d.keys.Nodup) : (d.set k v).keys.Nodup := by
  rw [keys_set]
  split
  · exact h
  · next hk =>
    rw [List.nodup_append]
    refine ⟨h, by simp, ?_⟩
    intro a ha b hb
    simp at hb; subst hb
    rintro rfl
    exact hk ha

theorem keys_del (d : Dict α β) (k : α) : (d.del k).keys = d.keys.erase k := by
  induction d with
  | nil => simp [del, keys]
  | cons x d ih =>
    obtain ⟨j, w⟩ := x
    by_cases h : k = j
    · subst h; simp [del, keys]
    · have hk : (del ((j, w) :: d) k).keys = j :: keys (del d k) := by simp [del, h, keys]
      have hj : keys ((j, w) :: d) = j :: keys d := rfl
      rw [hk, hj, ih, List.erase_cons_tail]
      simp [Ne.symm h]

theorem nodup_del (d : Dict α β) (k : α) (h : d.keys.Nodup) : (d.del k).keys.Nodup := by
  rw [keys_del]; exact h.erase k

theorem mem_keys_of_del (d : Dict α β) (k : α) {k' : α} (h : k' ∈ (d.del k).keys) : k' ∈ d.keys := by
  rw [keys_del] at h; exact List.mem_of_mem_erase h

theorem get_nil (k : α) : get ([] : Dict α β) k = none := rfl

end Dict
end Cheetah
