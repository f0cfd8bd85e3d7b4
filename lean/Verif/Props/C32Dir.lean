import Verif.Props.C32
import Verif.Model.FileDir
import Mathlib.Data.Nat.Digits.Lemmas

/-! # C32: mesh directories -/

namespace OmegaH

open Spec

theorem digit_byte {d : Nat} (h : d < 10) : (BitVec.ofNat 8 (48 + d)).toNat = 48 + d := by
  rw [BitVec.toNat_ofNat]; omega

theorem decimal_digits (n : Nat) : ∀ c ∈ decimal n, isDecimalDigit c = true := by
  intro c hc
  unfold decimal at hc
  split at hc
  · simp at hc; subst hc; decide
  · obtain ⟨d, hd, rfl⟩ := List.mem_map.1 hc
    have := Nat.digits_lt_base (by omega) (List.mem_reverse.1 hd)
    simp only [isDecimalDigit, digit_byte this, decide_eq_true_eq]
    omega

theorem decimal_ne_nil (n : Nat) : decimal n ≠ [] := by
  unfold decimal
  split
  · simp
  · rename_i h
    simp [Nat.digits_ne_nil_iff_ne_zero.2 h]

theorem decimal_value (n : Nat) : (decimal n).foldl (fun (acc : Nat) (c : BitVec 8) => 10 * acc + (c.toNat - 48)) 0 = n := by
  unfold decimal
  split
  · subst_vars; rfl
  · rw [List.foldl_map, List.foldl_reverse]
    have : ∀ l : List Nat, (∀ d ∈ l, d < 10) → List.foldr (fun x y => 10 * y + ((BitVec.ofNat 8 (48 + x)).toNat - 48)) 0 l = Nat.ofDigits 10 l := by
      intro l
      induction l with
      | nil => intro _; rfl
      | cons d l ih =>
        intro h
        rw [List.foldr_cons, ih (fun e he => h e (List.mem_cons_of_mem _ he)), digit_byte (h d (by simp)), Nat.ofDigits_cons]
        omega
    rw [this _ (fun d hd => Nat.digits_lt_base (by omega) hd), Nat.ofDigits_digits]

theorem takeWhile_decimal (n : Nat) (c : BitVec 8) (hc : isDecimalDigit c = false) (r : FileBytes) : (decimal n ++ c :: r).takeWhile isDecimalDigit = decimal n := by
  have := decimal_digits n
  generalize decimal n = l at this
  induction l with
  | nil => simp [hc]
  | cons a l ih =>
    rw [List.cons_append, List.takeWhile_cons, this a (by simp)]
    simp only [if_true]
    rw [ih (fun b hb => this b (List.mem_cons_of_mem _ hb))]

theorem parseI32_decimal {n : Nat} (h : n < 2 ^ 31) : parseI32 (decimal n ++ [10#8]) = some (n : Int) := by
  have hd : parseDigits (decimal n ++ [10#8]) = some n := by
    unfold parseDigits
    rw [takeWhile_decimal n 10#8 (by decide) []]
    dsimp only
    rw [decimal_value, if_neg]
    have : (decimal n).isEmpty = false := by
      cases hx : decimal n with
      | nil => exact absurd hx (decimal_ne_nil n)
      | cons => rfl
    simp [this]; omega
  have hdig := decimal_digits n
  cases hx : decimal n with
  | nil => exact absurd hx (decimal_ne_nil n)
  | cons a l =>
    rw [hx] at hd hdig
    have ha := hdig a (by simp)
    simp only [isDecimalDigit, decide_eq_true_eq] at ha
    unfold parseI32
    rw [List.cons_append, List.dropWhile_cons, if_neg (by simp; omega)]
    split
    · rename_i h1; cases h1; exact absurd ha.1 (by decide)
    · rename_i h1; cases h1; exact absurd ha.1 (by decide)
    · rw [← List.cons_append, hd]; rfl

theorem partName_inj {a b : Nat} (h : partName a = partName b) : a = b := by
  unfold partName at h
  have := List.append_cancel_right h
  rw [← decimal_value a, this, decimal_value]

theorem partName_other (a : Nat) : partName a ≠ npartsName ∧ partName a ≠ versionName := by
  have hdig := decimal_digits a
  unfold partName
  cases hx : decimal a with
  | nil => exact absurd hx (decimal_ne_nil a)
  | cons c l =>
    rw [hx] at hdig
    have hc := hdig c (by simp)
    constructor <;> (intro h; injection h with h _; subst h; exact absurd hc (by decide))

/-- Files with different names are found whatever the order they are written in. -/
theorem put_all {files : List (FileBytes × FileBytes)} (hn : (files.map Prod.fst).Nodup) {dir : FileDir} {f : FileBytes × FileBytes} (hf : f ∈ files) :
    files.foldl FileDir.put dir f.1 = some f.2 := by
  induction files generalizing dir with
  | nil => cases hf
  | cons a files ih =>
    rw [List.map_cons, List.nodup_cons] at hn
    rw [List.foldl_cons]
    rcases List.mem_cons.1 hf with rfl | hf
    · have keep : ∀ (l : List (FileBytes × FileBytes)) (d : FileDir), f.1 ∉ l.map Prod.fst → l.foldl FileDir.put d f.1 = d f.1 := by
        intro l
        induction l with
        | nil => intro d _; rfl
        | cons b l ih' =>
          intro d h
          rw [List.map_cons, List.mem_cons, not_or] at h
          rw [List.foldl_cons, ih' _ h.2]
          exact if_neg h.1
      rw [keep files _ hn.1]
      exact if_pos rfl
    · exact ih hn.2 hf

/-- All ranks write their files, in any order, over what was in the directory before; then every rank that reads its part of the directory gets the same mesh that it
had written, on machines of any endianness. -/
theorem C32_directory_partial {z : Option Zlib} (hz : ∀ y, z = some y → GoodZlib y) (lw lr : Nat → Bool) {n : Nat} {mesh : Nat → FileMesh} {part : Nat → FileBytes}
    (hm : ∀ r < n, Storable (mesh r) ∧ (mesh r).commSize = n ∧ (mesh r).commRank = r ∧ ∀ s ∈ (mesh r).sets, s.2 ≠ [])
    (hw : ∀ r < n, writeMesh z (lw r) (mesh r) = .ok (part r)) {files : List (FileBytes × FileBytes)}
    (hfiles : files.Perm ((List.range n).flatMap fun r => rankFiles n r (part r))) (dir : FileDir) :
    ∀ r < n, ∃ m', readDir z (lr r) n r (files.foldl FileDir.put dir) = .ok m' ∧ SameMesh (mesh r) m' := by
  intro r hr
  obtain ⟨hs, hc, hrk, hne⟩ := hm r hr
  have hn31 : n < 2 ^ 31 := by rw [← hc]; exact hs.comm.1
  have hmem : ∀ k < n, ∀ f ∈ rankFiles n k (part k), f ∈ files := by
    intro k hk f hf
    exact hfiles.mem_iff.2 (List.mem_flatMap.2 ⟨k, List.mem_range.2 hk, hf⟩)
  have hnd : (files.map Prod.fst).Nodup := by
    rw [(hfiles.map Prod.fst).nodup_iff, List.map_flatMap, List.nodup_flatMap]
    refine ⟨fun k _ => ?_, ?_⟩
    · unfold rankFiles
      split
      · simp only [List.map_cons, List.map_nil, List.nodup_cons, List.mem_cons, List.not_mem_nil, or_false, not_or, not_false_eq_true, List.nodup_nil, and_true]
        exact ⟨partName_other k, by decide⟩
      · simp
    · refine List.Pairwise.imp (R := fun a b => a < b) ?_ List.pairwise_lt_range
      intro a b hab x hx hy
      have hb0 : b ≠ 0 := by omega
      dsimp only at hx hy
      unfold rankFiles at hy
      rw [if_neg hb0] at hy
      simp only [List.map_cons, List.map_nil, List.mem_cons, List.not_mem_nil, or_false] at hy
      subst hy
      unfold rankFiles at hx
      split at hx
      · simp only [List.map_cons, List.map_nil, List.mem_cons, List.not_mem_nil, or_false] at hx
        rcases hx with hx | hx | hx
        · exact absurd (partName_inj hx) (by omega)
        · exact (partName_other b).1 hx
        · exact (partName_other b).2 hx
      · simp only [List.map_cons, List.map_nil, List.mem_cons, List.not_mem_nil, or_false] at hx
        exact absurd (partName_inj hx) (by omega)
  have h1 : files.foldl FileDir.put dir npartsName = some (decimal n ++ [10#8]) :=
    put_all (f := (npartsName, decimal n ++ [10#8])) hnd (hmem 0 (by omega) _ (by simp [rankFiles]))
  have h2 : files.foldl FileDir.put dir versionName = some (decimal 9 ++ [10#8]) :=
    put_all (f := (versionName, decimal 9 ++ [10#8])) hnd (hmem 0 (by omega) _ (by simp [rankFiles]))
  have h3 : files.foldl FileDir.put dir (partName r) = some (part r) := put_all (f := (partName r, part r)) hnd (hmem r hr _ (by simp [rankFiles]))
  obtain ⟨m', g1, g2⟩ := C32_roundtrip_partial hz (lw r) (lr r) hs hne (hw r hr)
  refine ⟨m', ?_, g2⟩
  unfold readDir
  rw [h1, h2, Option.bind_some, parseI32_decimal hn31]
  dsimp only
  rw [parseI32_decimal (by decide)]
  dsimp only
  rw [if_neg (by simp), if_pos (by decide), h3]
  rw [hc, hrk] at g1
  dsimp only
  have : ((9 : Nat) : Int) = 9 := rfl
  rw [this, g1]
  rfl

/-- One rank with a triangle meets the hypotheses. -/
example : ∀ r < 1, Storable ((fun _ => triMesh [coordsTag] [(1#32, 5#32)]) r) ∧ ((fun _ => triMesh [coordsTag] [(1#32, 5#32)]) r).commSize = 1 ∧
    ((fun _ => triMesh [coordsTag] [(1#32, 5#32)]) r).commRank = r := by
  intro r hr
  have h := triMesh_storable (tags := [coordsTag]) (pairs := [(1#32, 5#32)]) (by simpa using coordsTag_good) (by simp) (by decide) (by decide)
  obtain rfl : r = 0 := by omega
  exact ⟨h, rfl, rfl⟩

end OmegaH
