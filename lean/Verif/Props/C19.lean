import Verif.Model.Bcast
import Verif.Props.C06

/-! # C19: broadcast -/

namespace OmegaH

/-- **C19 (values).** After a broadcast from any rank, every rank holds the root's value. -/
theorem C19_bcast {α : Type} (xs : List α) (root : Nat) (h : root < xs.length) :
    ∃ ys, bcast xs root = some ys ∧ ys.length = xs.length ∧
      ∀ (r : Nat), r < xs.length → ys[r]? = xs[root]? := by
  refine ⟨xs.map fun _ => xs[root], by simp [bcast, h], by simp, ?_⟩
  intro r hr
  simp [hr, h]

example : bcast [5, 6, 7] 2 = some [7, 7, 7] := rfl

theorem strResize_length (s : List UInt8) (n : Nat) : (strResize s n).length = n := by
  simp [strResize]; omega

theorem strResize_self (s : List UInt8) : strResize s s.length = s := by simp [strResize]

/-- What a string broadcast does for every root: each rank gets the root's string cut or padded to
the length of the string of **rank 0**. -/
theorem C19_bcast_string_exact (ss : List (List UInt8)) (root : Nat) (s0 sr : List UInt8)
    (h0 : ss[0]? = some s0) (hr : ss[root]? = some sr) (hlen : s0.length < 2 ^ 31) :
    bcastString ss root = .ok (ss.map fun _ => strResize sr s0.length) := by
  have hw : wrapSigned 32 (s0.length : Int) = s0.length := by
    apply wrapSigned_id <;> simp <;> omega
  cases ss with
  | nil => simp at h0
  | cons a t =>
    simp only [List.getElem?_cons_zero, Option.some.injEq] at h0
    subst h0
    unfold bcastString
    simp only [List.map_cons, bcast, List.getElem?_cons_zero, Option.map_some, List.map_map,
      List.head?_cons]
    rw [hw, if_neg (by omega)]
    simp only [Int.toNat_natCast]
    unfold bcastBytes
    have hr' : (strResize a a.length :: t.map (fun s => strResize s a.length))[root]? =
        some (strResize sr a.length) := by
      rw [← List.map_cons (f := fun s => strResize s a.length), List.getElem?_map, hr]; rfl
    rw [hr']
    simp only
    rw [if_pos]
    · apply congrArg Res.ok
      clear hlen hw
      simp only [List.map_cons, List.map_map]
      have hx : ∀ s : List UInt8, (strResize sr a.length).take a.length ++
          (strResize s a.length).drop a.length = strResize sr a.length := by
        intro s
        rw [List.take_of_length_le (Nat.le_of_eq (strResize_length _ _)),
          List.drop_of_length_le (Nat.le_of_eq (strResize_length _ _)), List.append_nil]
      rw [hx]
      congr 1
      apply List.map_congr_left
      intro s _
      simp only [Function.comp]
      exact hx s
    · intro s hs
      rcases List.mem_cons.1 hs with rfl | hs
      · rw [strResize_length]; exact Nat.le_refl _
      · obtain ⟨s', _, rfl⟩ := List.mem_map.1 hs
        rw [strResize_length]; exact Nat.le_refl _

/-- **C19 (strings, partial).** If the root is rank 0, or its string is as long as rank 0's, every
rank ends with the root's string. Missing: other roots, where it is false. -/
theorem C19_bcast_string_partial (ss : List (List UInt8)) (root : Nat) (s0 sr : List UInt8)
    (h0 : ss[0]? = some s0) (hr : ss[root]? = some sr) (hlen : sr.length < 2 ^ 31)
    (hroot : root = 0 ∨ sr.length = s0.length) :
    ∃ out, bcastString ss root = .ok out ∧ out.length = ss.length ∧
      ∀ (r : Nat), r < ss.length → out[r]? = some sr := by
  have hl : sr.length = s0.length := by
    rcases hroot with rfl | h
    · rw [h0] at hr; cases hr; rfl
    · exact h
  refine ⟨_, C19_bcast_string_exact ss root s0 sr h0 hr (by omega), by simp, ?_⟩
  intro r hr
  simp [hr, ← hl, strResize_self]

example : bcastString [[1, 2, 3], [], [9]] 0 = .ok [[1, 2, 3], [1, 2, 3], [1, 2, 3]] := by
  decide +kernel

/-- **C19 refuted (strings).** Broadcasting the two-character string of rank 1 over rank 0's
one-character string gives every rank a truncated string. -/
theorem C19_bcast_string_refuted :
    ∃ (ss : List (List UInt8)) (root : Nat) (sr : List UInt8) (out : List (List UInt8)),
      ss[root]? = some sr ∧ bcastString ss root = .ok out ∧ ∀ s ∈ out, s ≠ sr :=
  ⟨[[97], [98, 99]], 1, [98, 99], [[98], [98]], rfl, by decide +kernel, by decide⟩

end OmegaH
