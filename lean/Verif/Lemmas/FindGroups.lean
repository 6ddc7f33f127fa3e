import Verif.Spec.FindFailure

/-! # Lemmas on groups, lines and identification -/

namespace Verif

namespace Groups

theorem get?_foldl (l : List (String × Option String)) (hn : (l.map Prod.fst).Nodup) (g : Groups) (k : String) :
    Dict.get? (l.foldl (fun d kv => d.insert kv.1 kv.2) g) k = (Dict.lookup k l).or (g.get? k) := by
  induction l generalizing g with
  | nil => rfl
  | cons a l ih =>
    obtain ⟨j, v⟩ := a
    rw [List.map_cons, List.nodup_cons] at hn
    rw [List.foldl_cons, ih hn.2]
    by_cases e : k = j
    · subst e
      rw [(Dict.lookup_eq_none_iff k l).2 hn.1]
      simp [Dict.lookup]
    · have : Dict.lookup k ((j, v) :: l) = Dict.lookup k l := by
        simp only [Dict.lookup]; rw [if_neg (fun h => e h.symm)]
      rw [this, Dict.get?_insert_ne _ e]

theorem get?_update (g h : Groups) (k : String) : (g.update h).get? k = (h.get? k).or (g.get? k) :=
  get?_foldl h.items h.nodup g k

theorem val_update (g h : Groups) (k : String) : (g.update h).val k = if k ∈ h.keys then h.val k else g.val k := by
  simp only [val, get?_update]
  by_cases e : k ∈ h.keys
  · rw [if_pos e]
    obtain ⟨v, hv⟩ := (Dict.mem_keys_iff h k).1 e
    rw [hv]; rfl
  · rw [if_neg e, (Dict.get?_eq_none_iff h k).2 e]; rfl

theorem val_updateSome (g h : Groups) (k : String) : (g.updateSome h).val k = (h.val k).or (g.val k) := by
  simp only [val, updateSome, get?_update, Dict.get?_filter]
  rcases e : h.get? k with _ | _ | v <;> simp [Option.filter]

theorem val_insert (g : Groups) (j k : String) (v : Option String) : Groups.val (g.insert j v) k = if k = j then v else g.val k := by
  simp only [val, Dict.get?_insert]
  split <;> simp_all

theorem val_erase (g : Groups) (j k : String) : Groups.val (g.erase j) k = if k = j then none else g.val k := by
  simp only [val, Dict.get?_erase]
  split <;> simp_all

theorem val_empty (k : String) : Groups.val Dict.empty k = none := rfl

theorem truthy_eq (g : Groups) (k : String) : g.truthy k = (g.val k).any (fun s => decide (s ≠ "")) := by
  unfold truthy; cases g.val k <;> rfl

end Groups

namespace Find

open Spec.Find

theorem identify_eq (env : FindEnv) (g : Groups) : identify env g = ids env g.val := by
  simp only [identify, ids, byName, host, address, List.findSome?]
  rcases e4 : g.val "ip4" with _ | t4
  · rcases e6 : g.val "ip6" with _ | t6
    · rcases ed : g.val "dns" with _ | td
      · rcases ef : g.val "fid" with _ | f
        · simp
        · simp only [Option.map_none, Option.isNone_none, Option.isSome_none, Bool.and_false, Bool.false_eq_true, if_false, if_true]
          cases env.addr f .default none <;> simp
      · cases hr : env.raw
        · simp
        · rcases ef : g.val "fid" with _ | f
          · simp only [Option.map_none, Option.map_some]
            cases ha : env.addr td .default none <;> simp [ha]
          · simp only [Option.map_none, Option.map_some]
            cases ha : env.addr td .default none with
            | none => simp [ha]
            | some a => by_cases h : f = td <;> simp [h, ha]
    · rcases ef : g.val "fid" with _ | f
      · simp only [Option.map_none, Option.map_some]
        cases ha : env.addr t6 .ip6 (g.val "cidr") <;> simp [ha]
      · simp only [Option.map_none, Option.map_some]
        cases ha : env.addr t6 .ip6 (g.val "cidr") with
        | none => simp [ha]
        | some a => by_cases h : f = t6 <;> simp [h, ha]
  · rcases ef : g.val "fid" with _ | f
    · simp only [Option.map_some]
      cases ha : env.addr t4 .ip4 (g.val "cidr") <;> simp [ha]
    · simp only [Option.map_some]
      cases ha : env.addr t4 .ip4 (g.val "cidr") with
      | none => simp [ha]
      | some a => by_cases h : f = t4 <;> simp [h, ha]

/-- identification depends on these values only -/
theorem ids_congr (env : FindEnv) {v w : Vals} (h : ∀ k, k ∈ ["ip4", "ip6", "dns", "fid", "cidr"] → v k = w k) : ids env v = ids env w := by
  have h4 := h "ip4" (by simp)
  have h6 := h "ip6" (by simp)
  have hd := h "dns" (by simp)
  have hf := h "fid" (by simp)
  have hc := h "cidr" (by simp)
  simp only [ids, byName, host, address, List.findSome?, h4, h6, hd, hf, hc]

end Find

end Verif
