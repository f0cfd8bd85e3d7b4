import Verif.Spec.Path

namespace OmegaH
open OmegaH.Spec

theorem findLastOf_none {c : Char} {l : List Char} : findLastOf c l = none ↔ c ∉ l := by
  induction l with
  | nil => simp [findLastOf]
  | cons x xs ih =>
    rw [findLastOf]
    cases h : findLastOf c xs with
    | some i =>
      have : c ∈ xs := by
        rcases Decidable.em (c ∈ xs) with hm | hm
        · exact hm
        · rw [ih.2 hm] at h; exact absurd h (by simp)
      simp [this]
    | none =>
      have hn := ih.1 h
      dsimp only
      by_cases hx : x = c
      · simp [hx]
      · simp [hx, hn, Ne.symm hx]

theorem findLastOf_some {c : Char} {l : List Char} {i : Nat} :
    findLastOf c l = some i ↔ ∃ a b, l = a ++ c :: b ∧ a.length = i ∧ c ∉ b := by
  induction l generalizing i with
  | nil => simp [findLastOf]
  | cons x xs ih =>
    rw [findLastOf]
    cases h : findLastOf c xs with
    | some j =>
      dsimp only
      obtain ⟨a, b, rfl, rfl, hb⟩ := ih.1 h
      constructor
      · intro e
        exact ⟨x :: a, b, rfl, by simpa using e, hb⟩
      · rintro ⟨a', b', e, rfl, hb'⟩
        cases a' with
        | nil =>
          simp only [List.nil_append, List.cons.injEq] at e
          exact absurd (e.2 ▸ (by simp : c ∈ a ++ c :: b)) hb'
        | cons y a' =>
          simp only [List.cons_append, List.cons.injEq] at e
          have := ih.2 ⟨a', b', e.2, rfl, hb'⟩
          rw [h] at this
          simpa using this
    | none =>
      dsimp only
      have hn := findLastOf_none.1 h
      constructor
      · intro e
        by_cases hx : x = c
        · rw [if_pos hx] at e
          exact ⟨[], xs, by simp [hx], by simpa using e, hn⟩
        · rw [if_neg hx] at e; exact absurd e (by simp)
      · rintro ⟨a', b', e, rfl, hb'⟩
        cases a' with
        | nil =>
          simp only [List.nil_append, List.cons.injEq] at e
          rw [if_pos e.1]; rfl
        | cons y a' =>
          simp only [List.cons_append, List.cons.injEq] at e
          exact absurd (e.2 ▸ (by simp : c ∈ a' ++ c :: b')) hn

theorem parts_of_join (a b : FsPath) (hb : pathSep ∉ b) :
    pathParent (a ++ pathSep :: b) = a ∧ pathFilename (a ++ pathSep :: b) = b := by
  have h : findLastOf pathSep (a ++ pathSep :: b) = some a.length :=
    findLastOf_some.2 ⟨a, b, rfl, rfl, hb⟩
  unfold pathParent pathFilename
  rw [h]
  constructor
  · exact List.take_left
  · show (a ++ pathSep :: b).drop (a.length + 1) = b
    rw [← List.drop_drop, List.drop_left]; rfl

/-- The name of a file has no separator in it. A path with a separator is taken apart into its
parent and its name, and nothing is lost; and joining a directory and a name gives a path with that
parent and that name. A path without a separator is its own name. -/
theorem C79_parts_partial (p a b : FsPath) :
    pathSep ∉ pathFilename p ∧
    (pathSep ∈ p → pathJoin (pathParent p) (pathFilename p) = p) ∧
    (pathSep ∉ p → pathFilename p = p) ∧
    (pathSep ∉ b → pathParent (pathJoin a b) = a ∧ pathFilename (pathJoin a b) = b) := by
  have hsplit : pathSep ∈ p → ∃ x y, p = x ++ pathSep :: y ∧ pathSep ∉ y := by
    intro h
    cases hf : findLastOf pathSep p with
    | none => exact absurd h (findLastOf_none.1 hf)
    | some i =>
      obtain ⟨x, y, e, -, hy⟩ := findLastOf_some.1 hf
      exact ⟨x, y, e, hy⟩
  have hname : pathSep ∉ p → pathFilename p = p := by
    intro h
    unfold pathFilename
    rw [findLastOf_none.2 h]
  refine ⟨?_, fun h => ?_, hname, fun h => ?_⟩
  · rcases Decidable.em (pathSep ∈ p) with h | h
    · obtain ⟨x, y, rfl, hy⟩ := hsplit h
      rw [(parts_of_join x y hy).2]; exact hy
    · rw [hname h]; exact h
  · obtain ⟨x, y, rfl, hy⟩ := hsplit h
    rw [(parts_of_join x y hy).1, (parts_of_join x y hy).2, pathJoin]
    simp
  · have : pathJoin a b = a ++ pathSep :: b := by simp [pathJoin]
    rw [this]; exact parts_of_join a b h

/-- The parent of a path without a separator is the path itself and not the directory it is in, so
a file that is named in another one is looked for below that file. -/
theorem C79_parent_refuted :
    (¬ ∀ p : FsPath, pathJoin (pathParent p) (pathFilename p) = p ∨ pathParent p = []) ∧
    ¬ ∀ p named : FsPath, pathSep ∉ p → pathSep ∉ named → pathBeside p named ≠ pathJoin p named := by
  constructor
  · intro h
    have := h "a.pvd".toList
    revert this; decide
  · intro h
    exact h "a.pvd".toList "b.vtu".toList (by decide) (by decide) (by decide)

/-- The name of a file is its stem and its extension. The extension is nothing, or a period with
something before it and no period after it; it is nothing exactly for names without a period
except at the start, and for the two special names. -/
theorem C79_extension (p : FsPath) :
    pathStem p ++ pathExtension p = pathFilename p ∧
    (pathExtension p ≠ [] → pathStem p ≠ [] ∧ ∃ e, pathExtension p = '.' :: e ∧ '.' ∉ e) ∧
    (pathExtension p = [] ↔ '.' ∉ (pathFilename p).drop 1 ∨ pathFilename p = ['.', '.']) := by
  unfold pathStem pathExtension
  generalize pathFilename p = f
  dsimp only
  cases h : findLastOf '.' f with
  | none =>
    have hn := findLastOf_none.1 h
    refine ⟨by simp, fun h => absurd rfl h, fun _ => Or.inl fun hm => hn (List.mem_of_mem_drop hm),
      fun _ => rfl⟩
  | some i =>
    dsimp only
    obtain ⟨a, b, rfl, rfl, hb⟩ := findLastOf_some.1 h
    split
    · rename_i hs
      refine ⟨by simp, fun h => absurd rfl h, fun _ => ?_, fun _ => rfl⟩
      rcases hs with hs | hs
      · rw [hs]; exact Or.inl (by decide)
      · exact Or.inr hs
    · rename_i hs
      split
      · rename_i h0
        obtain rfl := List.length_eq_zero_iff.1 h0
        exact ⟨by simp, fun h => absurd rfl h, fun _ => Or.inl (by simpa using hb), fun _ => rfl⟩
      · rename_i h0
        have ed : (a ++ '.' :: b).drop a.length = '.' :: b := List.drop_left
        rw [ed]
        refine ⟨by rw [List.take_left], fun _ => ⟨?_, b, rfl, hb⟩, fun e => absurd e (by simp), ?_⟩
        · rw [List.take_left]
          intro e
          exact h0 (by rw [e]; rfl)
        · rintro (e | e)
          · cases a with
            | nil => exact absurd rfl h0
            | cons x a => exact absurd (by simp) e
          · exact absurd (Or.inr e) hs

theorem fileStatus_mask (mode : Nat) : fileStatus mode = fileStatus (mode &&& 0o170000) := by
  unfold fileStatus
  have e : ∀ b, 0o170000 &&& b = b → mode &&& 0o170000 &&& b = mode &&& b := fun b h => by
    rw [Nat.and_assoc, h]
  rw [e 0o100000 rfl, e 0o040000 rfl, e 0o120000 rfl, e 0o060000 rfl, e 0o020000 rfl,
    e 0o010000 rfl]

/-- Regular files, directories and pipes are told apart from each other, whatever their other
bits. -/
theorem C79_kind_partial (mode : Nat) :
    (posixType mode = some .regular → fileStatus mode = .ok .regular) ∧
    (posixType mode = some .directory → fileStatus mode = .ok .directory) ∧
    (posixType mode = some .fifo → fileStatus mode = .ok .fifo) := by
  rw [fileStatus_mask]
  unfold posixType
  refine ⟨fun h => ?_, fun h => ?_, fun h => ?_⟩ <;>
  · split at h <;> first
      | (rename_i e; rw [e]; decide)
      | exact absurd h (by simp)

/-- Block devices are said to be directories, character devices to be links, links to be regular
files; and so are sockets, which have no name here. -/
theorem C79_kind_refuted :
    (posixType 0o060660 = some .block ∧ fileStatus 0o060660 = .ok .directory) ∧
    (posixType 0o020666 = some .character ∧ fileStatus 0o020666 = .ok .symlink) ∧
    (posixType 0o120777 = some .symlink ∧ fileStatus 0o120777 = .ok .regular) ∧
    (posixType 0o140777 = none ∧ fileStatus 0o140777 = .ok .regular) := by decide

/-- Removing a directory in which there is no link to a directory removes nothing that is not in
it, and gives the number of things that were removed. -/
theorem C79_remove_partial (d : DirEntries) (h : NoDirLinks d) (others : List DirEntries) :
    ∀ n, below d < n → removeAll n others d = some (.ok (others, below d + 1)) := by
  induction d with
  | done => intro n hn; obtain ⟨k, rfl⟩ : ∃ k, n = k + 1 := ⟨n - 1, by omega⟩; rfl
  | file rest ih =>
    intro n hn
    rw [below] at hn
    obtain ⟨k, rfl⟩ : ∃ k, n = k + 1 := ⟨n - 1, by omega⟩
    rw [removeAll, ih h k (by omega), below]
    simp only [Option.map_some, Res.bind_ok]
    rw [Nat.add_comm 1 (below rest)]
  | linkFile rest ih =>
    intro n hn
    rw [below] at hn
    obtain ⟨k, rfl⟩ : ∃ k, n = k + 1 := ⟨n - 1, by omega⟩
    rw [removeAll, ih h k (by omega), below]
    simp only [Option.map_some, Res.bind_ok]
    rw [Nat.add_comm 1 (below rest)]
  | sub entries rest ih1 ih2 =>
    intro n hn
    rw [below] at hn
    obtain ⟨k, rfl⟩ : ∃ k, n = k + 1 := ⟨n - 1, by omega⟩
    rw [removeAll, ih1 h.1 k (by omega), below]
    dsimp only
    rw [ih2 h.2 k (by omega)]
    simp only [Option.map_some, Res.bind_ok]
    have : below rest + 1 + (below entries + 1) = 1 + below entries + below rest + 1 := by omega
    rw [this]
  | linkDir t rest ih => exact absurd h (by simp [NoDirLinks])

/-- Removing a directory with a link to a directory elsewhere removes everything in that other
directory. -/
theorem C79_remove_refuted :
    ¬ ∀ (n : Nat) (others : List DirEntries) (d : DirEntries) (r : List DirEntries × Nat),
      removeAll n others d = some (.ok r) → r.1 = others := by
  intro h
  exact absurd (h 9 [.file (.file .done)] (.linkDir 0 .done) _ rfl) (by decide)

/-! ### The hypotheses are met -/

example : pathFilename "out/steps_7.pvtu".toList = "steps_7.pvtu".toList ∧
    pathParent "out/steps_7.pvtu".toList = "out".toList ∧
    pathStem "out/steps_7.pvtu".toList = "steps_7".toList ∧
    pathExtension "out/steps_7.pvtu".toList = ".pvtu".toList ∧
    pathExtension "a.b/.profile".toList = [] := by decide
example : pathBeside "out/s.pvd".toList "t.pvtu".toList = "out/t.pvtu".toList ∧
    pathBeside "s.pvd".toList "t.pvtu".toList = "s.pvd/t.pvtu".toList := by decide
example : posixType 0o100644 = some .regular ∧ posixType 0o040755 = some .directory ∧
    posixType 0o010600 = some .fifo := by decide
example : NoDirLinks (.sub (.file (.linkFile .done)) (.file .done)) ∧
    removeAll 9 [] (.sub (.file (.linkFile .done)) (.file .done)) = some (.ok ([], 5)) := by
  exact ⟨⟨trivial, trivial⟩, by decide⟩

end OmegaH
