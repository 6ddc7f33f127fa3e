import Verif.Lemmas.FailTags

/-!
# Tags of regular expressions — theorems (C85)
-/

namespace Verif

open Verif.FailTags Verif.FailTagsSpec

/-- An expression built of text, addresses, and named groups, nested in any way, becomes what it means: each tag its expression, groups with their names in small letters, parts for skipped
lines with numbers, and other tags themselves; without DNS `<HOST>` takes addresses only. -/
theorem C85_meaning (dns : Bool) (p : Pat) (hp : Good p) : resolve dns (write p) = (meaning dns 0 p).1 := by
  obtain ⟨_, _, h⟩ := scan_write dns p hp [] 0 []
  simp only [List.append_nil] at h
  unfold resolve
  rw [h]
  simp [scan]

/-- Expressions without `<` are not changed. -/
theorem C85_plain (dns : Bool) (s : Str) (h : '<' ∉ s) : resolve dns s = s := by
  have := scan_text dns ⟨[], 0⟩ s [] h
  simp only [List.append_nil] at this
  unfold resolve
  rw [this]
  simp [scan]

/-- The end of a group that was not begun stays as it is. -/
theorem C85_unopened (dns : Bool) (a n b : Str) (ha : '<' ∉ a) (hn : Name n) : resolve dns (a ++ tag ("/F-".toList ++ n) ++ b) = a ++ tag ("/F-".toList ++ n) ++ resolve dns b := by
  have hc : ∀ c ∈ n, isCustom c = true := fun c k => isCustom_iff.2 (hn.2 c k)
  have hname : ∀ c ∈ 'F' :: '-' :: n, isName c = true := by
    intro c k
    rcases List.mem_cons.1 k with k | k
    · subst k; decide
    · rcases List.mem_cons.1 k with k | k
      · subst k; decide
      · exact name_of_custom (hc c k)
  have e : "/F-".toList ++ n = '/' :: 'F' :: '-' :: n := rfl
  unfold resolve
  rw [List.append_assoc, scan_text dns _ a _ ha, tag_eq, e,
    scan_tag _ _ _ _ (fun c k => by rcases List.mem_cons.1 k with k | k; (subst k; decide); (unfold inTag; rw [hname c k]; rfl)) (isTag_slash _ (by simp) hname), subst_close _ _ _ hn.1 hc]
  simp [tag, tagText]

/-- An expression as it is shown can be given again: nothing in it is replaced once more, for any expression at all, and whether DNS is used or not. -/
theorem C85_again (dns dns' : Bool) (s : Str) : resolve dns' (resolve dns s) = resolve dns s := scan_again dns dns' s.length s ⟨[], 0⟩ (Nat.le_refl _)

namespace FailTagsSample

/-- `^login <F-USER>\S+</F-USER> from <ADDR>:<F-PORT/>$` -/
def login : Pat := .seq (.text "^login ".toList) (.seq (.group "USER".toList (.text "\\S+".toList)) (.seq (.text " from ".toList) (.seq (.fixed .addr) (.seq (.text ":".toList)
  (.seq (.self .port) (.text "$".toList))))))

/-- groups in groups, skipped lines, and something else -/
def nested : Pat := .seq (.group "MLFID".toList (.seq (.group "ID".toList (.text "a".toList)) (.text "b".toList))) (.seq .lines (.seq (.other "x".toList) .lines))

end FailTagsSample

open FailTagsSample

example : Good login := by
  refine ⟨by show '<' ∉ _; decide +kernel, ⟨⟨by decide, by decide +kernel⟩, by show '<' ∉ _; decide +kernel⟩, by show '<' ∉ _; decide +kernel, by show _ ∧ _; decide, by show '<' ∉ _; decide +kernel, trivial,
    by show '<' ∉ _; decide +kernel⟩

example : String.ofList (write login) = "^login <F-USER>\\S+</F-USER> from <ADDR>:<F-PORT/>$" ∧
    String.ofList (resolve true (write login)) = "^login (?P<user>\\S+) from \\[?(?:(?:::f{4,6}:)?(?P<ip4>(?:\\d{1,3}\\.){3}\\d{1,3})|(?P<ip6>(?:[0-9a-fA-F]{1,4}::?|:){1,7}(?:[0-9a-fA-F]{1,4}|(?<=:):)))\\]?:(?P<fport>\\w+)$" := by
  decide +kernel

example : String.ofList (resolve true (write nested)) = "(?P<mlfid>(?P<fid>a)b)\\n(?P<skiplines0>(?:(?:.*\\n)*?))<x>\\n(?P<skiplines1>(?:(?:.*\\n)*?))" := by decide +kernel

example : resolve true "a</F-USER>(?<!b) <HOST".toList = "a</F-USER>(?<!b) <HOST".toList ∧ resolve false "<HOST>".toList ≠ resolve true "<HOST>".toList := by decide +kernel

end Verif
