import Verif.Model.Basic
/-!
# `std::collections::HashMap` / `HashSet`

A map is its list of entries.  Lookup and insertion only depend on the set of entries; where the library iterates over a map
or set, the iteration order is a separate parameter of the model (any permutation of the entries).
-/
namespace Ccsds

/-- `std::collections::HashMap`, used in spacepacket/summary.rs, spacepacket/merge.rs, framing/packets.rs:64, framing/pipeline/framing.rs:9, framing/synchronizer.rs:83 and ccsds-cmd; not part of `/repo`. -/
abbrev HMap (K V : Type) := List (K × V)

namespace HMap
variable {K V : Type} [DecidableEq K]

/-- `HashMap::get`. -/
def get? (m : HMap K V) (k : K) : Option V :=
  match m with
  | [] => none
  | (k', v) :: m => if k' = k then some v else get? m k

/-- `HashMap::insert`: replaces the value of an existing key, otherwise adds an entry. -/
def insert (m : HMap K V) (k : K) (v : V) : HMap K V :=
  match m with
  | [] => [(k, v)]
  | (k', v') :: m => if k' = k then (k, v) :: m else (k', v') :: insert m k v

/-- The keys, in entry order. -/
def keys (m : HMap K V) : List K := m.map (·.1)

@[simp] theorem get?_nil (k : K) : get? ([] : HMap K V) k = none := rfl

theorem get?_insert (m : HMap K V) (k k' : K) (v : V) :
    (m.insert k v).get? k' = if k = k' then some v else m.get? k' := by
  induction m with
  | nil => simp [insert, get?]
  | cons e m ih =>
    obtain ⟨a, b⟩ := e
    by_cases h : a = k
    · subst h; simp only [insert, if_true, get?]; split <;> rfl
    · simp only [insert, h, if_false, get?, ih]
      by_cases h2 : a = k'
      · subst h2; simp [Ne.symm h]
      · simp [h2]

theorem get?_eq_none_iff (m : HMap K V) (k : K) : m.get? k = none ↔ k ∉ m.keys := by
  induction m with
  | nil => simp [keys]
  | cons e m ih =>
    obtain ⟨a, b⟩ := e
    simp only [get?, keys, List.map_cons, List.mem_cons, not_or]
    by_cases h : a = k
    · simp [h]
    · simp only [h, if_false]
      rw [ih]; simp [keys, Ne.symm h]

theorem keys_insert (m : HMap K V) (k : K) (v : V) :
    (m.insert k v).keys = if k ∈ m.keys then m.keys else m.keys ++ [k] := by
  induction m with
  | nil => simp [insert, keys]
  | cons e m ih =>
    obtain ⟨a, b⟩ := e
    by_cases h : a = k
    · subst h; simp [insert, keys]
    · have hne : k ≠ a := Ne.symm h
      simp only [insert, h, if_false]
      simp only [keys, List.map_cons] at ih ⊢
      rw [ih]
      simp only [List.mem_cons, hne, false_or]
      by_cases hm : k ∈ List.map (fun x => x.fst) m
      · simp only [hm, if_true]
      · simp only [hm, if_false, List.cons_append]

theorem nodup_insert (m : HMap K V) (k : K) (v : V) (h : m.keys.Nodup) : (m.insert k v).keys.Nodup := by
  rw [keys_insert]
  split
  · exact h
  · rename_i hk
    rw [List.nodup_append]
    exact ⟨h, by simp, fun a ha b hb => by simp at hb; subst hb; exact fun e => hk (e ▸ ha)⟩

theorem mem_iff_get? (m : HMap K V) (h : m.keys.Nodup) (k : K) (v : V) : (k, v) ∈ m ↔ m.get? k = some v := by
  induction m with
  | nil => simp
  | cons e m ih =>
    obtain ⟨a, b⟩ := e
    simp only [keys, List.map_cons, List.nodup_cons] at h
    simp only [List.mem_cons, Prod.mk.injEq, get?]
    by_cases hk : a = k
    · subst hk
      simp only [if_true, Option.some.injEq]
      constructor
      · rintro (⟨_, rfl⟩ | hm)
        · rfl
        · exact absurd (List.mem_map.2 ⟨_, hm, rfl⟩) h.1
      · rintro rfl; exact Or.inl ⟨trivial, rfl⟩
    · rw [if_neg hk, ← ih h.2]
      simp [Ne.symm hk]

/-- Sum of a quantity over the entries, after changing one entry. -/
theorem sum_insert (m : HMap K V) (f : V → Nat) (k : K) (v : V) :
    ((m.insert k v).map (fun e => f e.2)).sum + ((m.get? k).map f).getD 0 = (m.map (fun e => f e.2)).sum + f v := by
  induction m with
  | nil => simp [insert]
  | cons e m ih =>
    obtain ⟨a, b⟩ := e
    by_cases h : a = k
    · subst h; simp [insert, get?]; omega
    · simp only [insert, h, if_false, get?, List.map_cons, List.sum_cons]
      omega

end HMap
end Ccsds
