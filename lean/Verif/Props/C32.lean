import Verif.Lemmas.File

/-! # C32: reading a mesh from the bytes written for it returns the same mesh -/

namespace OmegaH

open Spec

theorem bytesLt_irrefl (a : FileBytes) : bytesLt a a = false := by
  induction a with
  | nil => rfl
  | cons x a ih => simp [bytesLt, ih]

theorem bytesLt_asymm {a : FileBytes} : ∀ {b : FileBytes}, bytesLt a b = true → bytesLt b a = false := by
  induction a with
  | nil => intro b h; cases b <;> rfl
  | cons x a ih =>
    intro b h
    cases b with
    | nil => cases h
    | cons y b =>
      simp only [bytesLt, Bool.or_eq_true, decide_eq_true_eq, Bool.and_eq_true] at h
      simp only [bytesLt, Bool.or_eq_false_iff, decide_eq_false_iff_not, Bool.and_eq_false_iff]
      rcases h with h | ⟨h1, h2⟩
      · exact ⟨fun h' => absurd (BitVec.lt_trans h h') (BitVec.lt_irrefl _), Or.inl (fun e => by rw [e] at h; exact BitVec.lt_irrefl _ h)⟩
      · exact ⟨fun h' => by rw [h1] at h'; exact BitVec.lt_irrefl _ h', Or.inr (ih h2)⟩

theorem pushPair_new {name : FileBytes} (q : BitVec 32 × BitVec 32) : ∀ (acc : List (FileBytes × List (BitVec 32 × BitVec 32))),
    (∀ s ∈ acc, bytesLt s.1 name = true) → pushPair name q acc = acc ++ [(name, [q])] := by
  intro acc
  induction acc with
  | nil => intro _; rfl
  | cons s acc ih =>
    intro h
    have h1 := h s (by simp)
    unfold pushPair
    rw [if_neg (fun e => by rw [e, bytesLt_irrefl] at h1; cases h1), if_neg (by rw [bytesLt_asymm h1]; simp), ih (fun t ht => h t (List.mem_cons_of_mem _ ht))]
    rfl

theorem pushPair_old {name : FileBytes} (q : BitVec 32 × BitVec 32) (ps : List (BitVec 32 × BitVec 32)) : ∀ (acc : List (FileBytes × List (BitVec 32 × BitVec 32))),
    (∀ s ∈ acc, bytesLt s.1 name = true) → pushPair name q (acc ++ [(name, ps)]) = acc ++ [(name, ps ++ [q])] := by
  intro acc
  induction acc with
  | nil => intro _; simp [pushPair]
  | cons s acc ih =>
    intro h
    have h1 := h s (by simp)
    rw [List.cons_append]
    unfold pushPair
    rw [if_neg (fun e => by rw [e, bytesLt_irrefl] at h1; cases h1), if_neg (by rw [bytesLt_asymm h1]; simp), ih (fun t ht => h t (List.mem_cons_of_mem _ ht))]
    rfl

theorem pushPairs {name : FileBytes} (acc : List (FileBytes × List (BitVec 32 × BitVec 32))) (h : ∀ s ∈ acc, bytesLt s.1 name = true) :
    ∀ (qs : List (BitVec 32 × BitVec 32)) (ps : List (BitVec 32 × BitVec 32)),
    qs.foldl (fun acc q => pushPair name q acc) (acc ++ [(name, ps)]) = acc ++ [(name, ps ++ qs)] := by
  intro qs
  induction qs with
  | nil => intro ps; simp
  | cons q qs ih =>
    intro ps
    rw [List.foldl_cons, pushPair_old q ps acc h, ih]
    simp

/-- The sets with a pair in them. -/
def usedSets (sets : List (FileBytes × List (BitVec 32 × BitVec 32))) : List (FileBytes × List (BitVec 32 × BitVec 32)) := sets.filter (fun s => !s.2.isEmpty)

theorem sets_fold (sets : List (FileBytes × List (BitVec 32 × BitVec 32))) : ∀ (acc : List (FileBytes × List (BitVec 32 × BitVec 32))),
    (acc ++ sets).Pairwise (fun s t => bytesLt s.1 t.1) →
    sets.foldl (fun acc s => s.2.foldl (fun acc q => pushPair s.1 q acc) acc) acc = acc ++ usedSets sets := by
  induction sets with
  | nil => intro acc _; simp [usedSets]
  | cons s sets ih =>
    intro acc hp
    obtain ⟨name, ps⟩ := s
    rw [List.foldl_cons]
    have hlt : ∀ t ∈ acc, bytesLt t.1 name = true := fun t ht => (List.pairwise_append.1 hp).2.2 t ht (name, ps) (by simp)
    cases ps with
    | nil =>
      dsimp only [List.foldl_nil]
      rw [ih acc]
      · simp [usedSets]
      · exact hp.sublist (List.append_sublist_append_left acc |>.2 (List.sublist_cons_self _ _))
    | cons q qs =>
      dsimp only [List.foldl_cons]
      rw [pushPair_new q acc hlt, pushPairs acc hlt, ih]
      · simp [usedSets]
      · refine List.Pairwise.imp_of_mem (R := fun s t => bytesLt s.1 t.1) (fun _ _ h => h) ?_
        have e : acc ++ [(name, [q] ++ qs)] ++ sets = acc ++ (name, q :: qs) :: sets := by simp
        rw [e]
        exact hp

theorem codec_sets (lw lr : Bool) {sets : List (FileBytes × List (BitVec 32 × BitVec 32))} (hs : sets.Pairwise (fun s t => bytesLt s.1 t.1)) (hn : sets.length < 2 ^ 31)
    (hp : ∀ s ∈ sets, s.1.length < 2 ^ 31 ∧ s.2.length < 2 ^ 31) {b : FileBytes} (h : writeSets lw sets = .ok b) : Codec (readSets lr) b (usedSets sets) := by
  have w32 : FileWidth 32 := Or.inr (Or.inl rfl)
  obtain ⟨x, y, hx, hy, rfl⟩ := wcat_ok h
  cases hx
  unfold readSets
  rw [writeValue_le w32]
  refine codec_andThen (codec_value w32 lr _) ?_
  rw [(small_int hn).1, Int.toNat_natCast]
  refine codec_last (codec_timesW _ sets hy ?_) ?_
  · intro s hsm c hc
    obtain ⟨u, v, hu, hv, rfl⟩ := wcat_ok hc
    cases hv
    obtain ⟨n1, n2⟩ := hp s hsm
    unfold readSet
    refine codec_andThen (codec_string lw lr n1 hu) ?_
    simp only [writeValue_le w32]
    refine codec_andThen (codec_value w32 lr _) ?_
    rw [(small_int n2).1, Int.toNat_natCast]
    refine codec_last (codec_times (fun q : BitVec 32 × BitVec 32 => leBytes q.1 ++ leBytes q.2) s.2 ?_) (codec_give _)
    intro q _
    exact codec_andThen (codec_value w32 lr _) (codec_last (codec_value w32 lr _) (codec_give _))
  · have := sets_fold sets [] hs
    rw [this]
    exact codec_give _

theorem degree_pos (f : Family) {d : Nat} (hd : d < 3) : 0 < elementDegree f (d + 1 : Nat) d := by
  have : d = 0 ∨ d = 1 ∨ d = 2 := by omega
  rcases this with rfl | rfl | rfl <;> cases f <;> decide

theorem nents_bound {m : FileMesh} (hm : Storable m) {d : Nat} (hd : d ≤ m.downs.length) : 0 ≤ m.nents d ∧ m.nents d < 2 ^ 31 := by
  cases d with
  | zero =>
    refine ⟨hm.verts, ?_⟩
    have := BitVec.toInt_lt (x := m.nverts)
    exact this
  | succ d =>
    obtain ⟨q, hq⟩ : ∃ q, m.downs[d]? = some q := ⟨_, List.getElem?_eq_getElem (by omega)⟩
    obtain ⟨a, c⟩ := q
    obtain ⟨h1, _⟩ := hm.down d a c hq
    have hp := degree_pos m.family (d := d) (by have := hm.dim; omega)
    have e : m.nents (d + 1) = (a.length : Int) / elementDegree m.family (d + 1 : Nat) d := by
      simp only [FileMesh.nents, hq]
    rw [e]
    refine ⟨Int.ediv_nonneg (by omega) (by omega), ?_⟩
    have : (a.length : Int) / elementDegree m.family (d + 1 : Nat) d ≤ a.length := Int.ediv_le_self _ (by omega)
    omega

/-- The mesh that is read from a mesh's file. -/
def readBack (m : FileMesh) : FileMesh :=
  { m with
    levels := m.levels.mapIdx fun d l => ⟨l.tags, if m.commSize > 1 then l.owners else none, if m.hasAnyParents then some (l.askParents (m.nents d)) else none⟩
    sets := usedSets m.sets }

theorem codec_downs {z : Option Zlib} (hz : ∀ y, z = some y → GoodZlib y) (lw lr : Bool) {m : FileMesh} (hm : Storable m) {b : FileBytes}
    (h : wlist (m.downs.mapIdx fun d down => writeDown z lw (d + 1) down) = .ok b) :
    Codec (readAll ((List.range m.downs.length).map fun d => readDown z lr (compressedBy z) m.family (d + 1))) b m.downs := by
  refine codec_all _ _ _ h (by simp) (by simp) ?_
  intro i p c a hp hc ha
  rw [List.getElem?_mapIdx, ha, Option.map_some, Option.some.injEq] at hc
  rw [List.getElem?_map, List.getElem?_range (List.getElem?_eq_some_iff.1 ha).1, Option.map_some, Option.some.injEq] at hp
  subst hp
  obtain ⟨a1, a2⟩ := a
  obtain ⟨h1, h2, h3, h4⟩ := hm.down i a1 a2 ha
  exact codec_down hz lw lr h1 h2 h3 h4 hc

theorem codec_levels {z : Option Zlib} (hz : ∀ y, z = some y → GoodZlib y) (lw lr : Bool) {m : FileMesh} (hm : Storable m) {b : FileBytes}
    (h : wlist (m.levels.map (writeLevel z lw m.commSize)) = .ok b) :
    Codec (readAll ((List.range (m.downs.length + 1)).map fun d => readLevel z lr (compressedBy z) 9 m.commSize (m.nents d))) b
      (m.levels.map fun l => ⟨l.tags, if m.commSize > 1 then l.owners else none, none⟩) := by
  refine codec_all _ _ _ h (by simp [hm.levels]) (by simp) ?_
  intro i p c a hp hc ha
  rw [List.getElem?_map] at ha hc
  obtain ⟨l, hl, rfl⟩ := Option.map_eq_some_iff.1 ha
  rw [hl, Option.map_some, Option.some.injEq] at hc
  have hi : i < m.downs.length + 1 := by
    have := (List.getElem?_eq_some_iff.1 hl).1
    rwa [hm.levels] at this
  rw [List.getElem?_map, List.getElem?_range hi, Option.map_some, Option.some.injEq] at hp
  subst hp
  obtain ⟨n1, n2⟩ := nents_bound hm (d := i) (by omega)
  exact codec_level hz lw lr n1 n2 (hm.level i l hl) hc

theorem codec_parents {z : Option Zlib} (hz : ∀ y, z = some y → GoodZlib y) (lw lr : Bool) {m : FileMesh} (hm : Storable m) {b : FileBytes}
    (h : wlist (m.levels.mapIdx fun d l =>
        wcat (writeArray z lw (some (l.askParents (m.nents d)).1)) (writeArray z lw (some (l.askParents (m.nents d)).2))) = .ok b) :
    Codec (readAll ((List.range (m.downs.length + 1)).map fun d => readParents z lr (compressedBy z) (m.nents d))) b
      (m.levels.mapIdx fun d l => l.askParents (m.nents d)) := by
  refine codec_all _ _ _ h (by simp [hm.levels]) (by simp) ?_
  intro i p c a hp hc ha
  rw [List.getElem?_mapIdx] at ha hc
  obtain ⟨l, hl, rfl⟩ := Option.map_eq_some_iff.1 ha
  rw [hl, Option.map_some, Option.some.injEq] at hc
  have hi : i < m.downs.length + 1 := by
    have := (List.getElem?_eq_some_iff.1 hl).1
    rwa [hm.levels] at this
  rw [List.getElem?_map, List.getElem?_range hi, Option.map_some, Option.some.injEq] at hp
  subst hp
  obtain ⟨n1, n2⟩ := nents_bound hm (d := i) (by omega)
  have hlen : (l.askParents (m.nents i)).1.length < 2 ^ 31 ∧ (l.askParents (m.nents i)).2.length < 2 ^ 31 := by
    unfold FileLevel.askParents
    cases hp : l.parents with
    | none => simp; omega
    | some q => exact (hm.level i l hl).parents q hp
  obtain ⟨x, y, hx, hy, rfl⟩ := wcat_ok hc
  unfold readParents
  refine codec_andThen (codec_array hz (Or.inr (Or.inl rfl)) lw lr hlen.1 hx) ?_
  refine codec_last (codec_array hz (Or.inl rfl) lw lr hlen.2 hy) ?_
  exact codec_check (by simpa using n1) (codec_give _)

theorem codec_mesh {z : Option Zlib} (hz : ∀ y, z = some y → GoodZlib y) (lw lr : Bool) {m : FileMesh} (hm : Storable m) {b : FileBytes}
    (h : writeMesh z lw m = .ok b) : Codec (readMesh z lr 9 m.commSize m.commRank) b (readBack m) := by
  have w8 : FileWidth 8 := Or.inl rfl
  have w32 : FileWidth 32 := Or.inr (Or.inl rfl)
  unfold writeMesh at h
  obtain ⟨b0, c0, h0, k0, rfl⟩ := wcat_ok h
  obtain ⟨b1, c1, h1, k1, rfl⟩ := wcat_ok k0
  obtain ⟨b2, c2, h2, k2, rfl⟩ := wcat_ok k1
  obtain ⟨b3, c3, h3, k3, rfl⟩ := wcat_ok k2
  obtain ⟨b4, c4, h4, k4, rfl⟩ := wcat_ok k3
  obtain ⟨b5, c5, h5, k5, rfl⟩ := wcat_ok k4
  obtain ⟨b6, c6, h6, k6, rfl⟩ := wcat_ok k5
  obtain ⟨b7, c7, h7, k7, rfl⟩ := wcat_ok k6
  cases k7
  cases h0
  cases h1
  cases h3
  obtain ⟨part, hpart, hmeta⟩ := codec_meta lw lr hm h2
  unfold readMesh
  refine codec_andThen (codec_bytes [0xa1#8, 0x1a#8]) ?_
  refine codec_check (by decide) ?_
  rw [if_neg (by decide)]
  refine codec_andThen (b := []) (codec_give (9 : Int)) ?_
  refine codec_check (by decide) ?_
  rw [writeValue_le w8, writeValue_le w32]
  refine codec_andThen (codec_value w8 lr _) ?_
  refine codec_check (by cases z <;> rfl) ?_
  have hcomp : decide ((if z.isSome = true then 1#8 else 0#8) ≠ 0#8) = compressedBy z := by cases z <;> rfl
  refine codec_andThen hmeta ?_
  refine codec_andThen (codec_value w32 lr _) ?_
  rw [hcomp]
  dsimp only
  refine codec_andThen (codec_downs hz lw lr hm h4) ?_
  refine codec_andThen (codec_levels hz lw lr hm h5) ?_
  rw [if_pos (by decide)]
  refine codec_andThen (codec_sets lw lr hm.sorted hm.sets hm.pairs h6) ?_
  rw [if_pos (by decide), List.append_nil]
  by_cases hp : m.hasAnyParents = true
  · rw [if_pos hp] at h7
    obtain ⟨x, y, hx, hy, rfl⟩ := wcat_ok h7
    cases hx
    rw [writeValue_le w8]
    refine codec_andThen (codec_value w8 lr _) ?_
    rw [if_neg (by decide)]
    refine codec_last (codec_parents hz lw lr hm hy) ?_
    have e : readBack m = ⟨m.family, m.commSize, m.commRank, some part, m.nghost, m.hints, m.nverts, m.downs,
        List.zipWith (fun (l : FileLevel) p => { l with parents := some p }) (m.levels.map fun l => ⟨l.tags, if m.commSize > 1 then l.owners else none, none⟩)
          (m.levels.mapIdx fun d l => l.askParents (m.nents d)), usedSets m.sets⟩ := by
      unfold readBack
      rw [← hpart]
      congr 1
      apply List.ext_getElem?
      intro i
      rw [List.getElem?_mapIdx, List.getElem?_zipWith, List.getElem?_map, List.getElem?_mapIdx]
      cases m.levels[i]? with
      | none => rfl
      | some l => simp only [Option.map_some, hp, if_true]
    rw [e]
    exact codec_give _
  · rw [if_neg hp] at h7
    cases h7
    rw [writeValue_le w8]
    refine codec_last (codec_value w8 lr _) ?_
    rw [if_pos rfl]
    have e : readBack m = ⟨m.family, m.commSize, m.commRank, some part, m.nghost, m.hints, m.nverts, m.downs,
        m.levels.map fun l => ⟨l.tags, if m.commSize > 1 then l.owners else none, none⟩, usedSets m.sets⟩ := by
      unfold readBack
      rw [← hpart]
      congr 1
      apply List.ext_getElem?
      intro i
      rw [List.getElem?_mapIdx, List.getElem?_map]
      cases m.levels[i]? with
      | none => rfl
      | some l => simp only [Option.map_some, hp]; rfl
    rw [e]
    exact codec_give _

/-- Integers and reals of every width are read as they were written, bit for bit, whatever the endianness of the two machines. -/
theorem C32_values (lw lr : Bool) {w : Nat} (hw : w = 8 ∨ w = 32 ∨ w = 64) (v : BitVec w) (rest : FileBytes) :
    writeValue lw v = leBytes v ∧ readValue lr w (writeValue lw v ++ rest) = .ok (v, rest) := by
  refine ⟨writeValue_le hw lw v, ?_⟩
  rw [writeValue_le hw]
  exact (codec_value hw lr v).reads rest

theorem writeArray_endian (z : Option Zlib) {w : Nat} (hw : FileWidth w) (a : Option (List (BitVec w))) (lw : Bool) : writeArray z lw a = writeArray z true a := by
  unfold writeArray
  simp only [writeValue_le hw, writeValue_le (show FileWidth 32 from Or.inr (Or.inl rfl)), writeValue_le (show FileWidth 64 from Or.inr (Or.inr rfl))]

/-- Machines of either endianness write the same bytes. -/
theorem C32_endian (z : Option Zlib) (m : FileMesh) (lw : Bool) : writeMesh z lw m = writeMesh z true m := by
  have w8 : FileWidth 8 := Or.inl rfl
  have w32 : FileWidth 32 := Or.inr (Or.inl rfl)
  have w64 : FileWidth 64 := Or.inr (Or.inr rfl)
  have htag : writeTag z lw = writeTag z true := by
    funext t
    unfold writeTag writeString
    simp only [writeValue_le w8, writeValue_le w32, writeArray_endian z w8 _ lw, writeArray_endian z w32 _ lw, writeArray_endian z w64 _ lw]
  have hdown : writeDown z lw = writeDown z true := by
    funext d a
    unfold writeDown
    simp only [writeArray_endian z w8 _ lw, writeArray_endian z w32 _ lw]
  have hlevel : ∀ n, writeLevel z lw n = writeLevel z true n := by
    intro n
    funext l
    unfold writeLevel
    simp only [htag, writeValue_le w32, writeArray_endian z w32 _ lw]
  have hmeta : writeMeta lw m = writeMeta true m := by
    unfold writeMeta writeHints
    simp only [writeValue_le w8, writeValue_le w32, writeValue_le w64]
  have hsets : writeSets lw m.sets = writeSets true m.sets := by
    unfold writeSets writeString
    simp only [writeValue_le w32]
  unfold writeMesh
  simp only [hdown, hlevel, hmeta, hsets, writeValue_le w8, writeValue_le w32, writeArray_endian z w8 _ lw, writeArray_endian z w32 _ lw]

theorem readBack_same {m : FileMesh} (hm : Storable m) (hs : ∀ s ∈ m.sets, s.2 ≠ []) : SameMesh m (readBack m) := by
  have hlev : ∀ i : Nat, (readBack m).levels[i]? = m.levels[i]?.map fun l =>
      ⟨l.tags, if m.commSize > 1 then l.owners else none, if m.hasAnyParents then some (l.askParents (m.nents i)) else none⟩ := by
    intro i
    exact List.getElem?_mapIdx
  have hn : ∀ i : Nat, (readBack m).nents i = m.nents i := fun i => by cases i <;> rfl
  refine ⟨rfl, ⟨rfl, rfl⟩, ⟨rfl, rfl⟩, rfl, rfl, rfl, ?_, ?_, ?_, ?_, ?_⟩
  · apply List.ext_getElem?
    intro i
    rw [List.getElem?_map, List.getElem?_map, hlev]
    cases m.levels[i]? <;> rfl
  · intro d _
    unfold ownersOf
    rw [hn, hlev]
    by_cases h1 : m.commSize = 1
    · rw [if_pos h1]; exact if_pos h1
    · rw [if_neg h1]
      refine (if_neg h1).trans ?_
      have : m.commSize > 1 := by have := hm.comm; omega
      cases m.levels[d]? with
      | none => rfl
      | some l => simp [this]
  · change usedSets m.sets = m.sets
    unfold usedSets
    rw [List.filter_eq_self]
    intro s h
    have := hs s h
    cases h2 : s.2 with
    | nil => exact absurd h2 this
    | cons => rfl
  · unfold FileMesh.hasAnyParents
    cases hp : m.hasAnyParents with
    | true =>
      have hp' := hp
      unfold FileMesh.hasAnyParents at hp
      rw [hp]
      rw [List.any_eq_true] at hp ⊢
      obtain ⟨l, hl, _⟩ := hp
      obtain ⟨i, hi⟩ := List.getElem?_of_mem hl
      refine ⟨_, List.mem_of_getElem? (i := i) (by rw [hlev, hi]; rfl), ?_⟩
      simp [hp']
    | false =>
      have hp' := hp
      unfold FileMesh.hasAnyParents at hp
      rw [hp]
      rw [List.any_eq_false]
      intro l hl
      obtain ⟨i, hi⟩ := List.getElem?_of_mem hl
      rw [hlev] at hi
      obtain ⟨k, _, rfl⟩ := Option.map_eq_some_iff.1 hi
      simp [hp']
  · intro d _
    unfold parentsOf
    rw [hn, hlev]
    cases hl : m.levels[d]? with
    | none => rfl
    | some l =>
      simp only [Option.map_some, Option.some.injEq]
      by_cases hp : m.hasAnyParents = true
      · simp only [hp, if_true, FileLevel.askParents]
      · have : l.parents = none := by
          unfold FileMesh.hasAnyParents at hp
          rw [Bool.not_eq_true, List.any_eq_false] at hp
          have := hp l (List.mem_of_getElem? hl)
          simpa using this
        simp only [hp, FileLevel.askParents, this]
        rfl

/-- Reading the bytes written for a mesh, none of whose class sets is empty, returns the same mesh, whatever the endianness of the two machines and whether or not
the arrays are compressed. -/
theorem C32_roundtrip_partial {z : Option Zlib} (hz : ∀ y, z = some y → GoodZlib y) (lw lr : Bool) {m : FileMesh} (hm : Storable m) (hs : ∀ s ∈ m.sets, s.2 ≠ [])
    {b : FileBytes} (h : writeMesh z lw m = .ok b) : ∃ m', readMesh z lr 9 m.commSize m.commRank b = .ok (m', []) ∧ SameMesh m m' := by
  refine ⟨_, ?_, readBack_same hm hs⟩
  have := (codec_mesh hz lw lr hm h).reads []
  rwa [List.append_nil] at this

/-- A file that ends early is not refused: reading it is undefined. -/
theorem C32_truncated {z : Option Zlib} (hz : ∀ y, z = some y → GoodZlib y) (lw lr : Bool) {m : FileMesh} (hm : Storable m) {b : FileBytes}
    (h : writeMesh z lw m = .ok b) {b' : FileBytes} (hb : b' <+: b) (hne : b' ≠ b) : readMesh z lr 9 m.commSize m.commRank b' = .ub :=
  (codec_mesh hz lw lr hm h).cut b' hb hne

theorem codec_step {α β : Type} {p : FileParser α} {f : α → FileParser β} {b rest : FileBytes} {a : α} (h : Codec p b a) :
    (p.andThen f) (b ++ rest) = f a rest := by
  unfold FileParser.andThen
  rw [h.reads, Res.bind_ok]

theorem check_step {β : Type} {f : Unit → FileParser β} {c : Bool} (hc : c = true) (rest : FileBytes) :
    ((FileParser.check c).andThen f) rest = f () rest := by
  subst hc
  rfl

theorem check_fails {β : Type} {f : Unit → FileParser β} {c : Bool} (hc : c = false) (rest : FileBytes) :
    ((FileParser.check c).andThen f) rest = .fail := by
  subst hc
  rfl

/-- The part written by one rank is refused by every other rank, and by runs with another number of ranks. -/
theorem C32_other_rank {z : Option Zlib} (lw lr : Bool) {m : FileMesh} (hm : Storable m) {b : FileBytes}
    (h : writeMesh z lw m = .ok b) {size rank : Nat} (hne : size ≠ m.commSize ∨ rank ≠ m.commRank) :
    readMesh z lr 9 size rank b = .fail := by
  have w8 : FileWidth 8 := Or.inl rfl
  have w32 : FileWidth 32 := Or.inr (Or.inl rfl)
  unfold writeMesh at h
  obtain ⟨b0, c0, h0, k0, rfl⟩ := wcat_ok h
  obtain ⟨b1, c1, h1, k1, rfl⟩ := wcat_ok k0
  obtain ⟨b2, c2, h2, _, rfl⟩ := wcat_ok k1
  cases h0
  cases h1
  unfold writeMeta at h2
  cases hp : m.parting with
  | none => rw [hp] at h2; cases h2
  | some p =>
    rw [hp] at h2
    dsimp only at h2
    cases h2
    obtain ⟨d1, d2⟩ := hm.dim
    have hd : (BitVec.ofNat 8 m.downs.length).toInt = m.downs.length := by
      have : m.downs.length = 1 ∨ m.downs.length = 2 ∨ m.downs.length = 3 := by omega
      rcases this with e | e | e <;> rw [e] <;> decide
    obtain ⟨s1, s2⟩ := hm.comm
    have key : ∀ {γ : Type} (f : FileMeta → FileParser γ) (rest : FileBytes), (readMeta lr 9 size rank).andThen f
        (leBytes (familyCode m.family) ++ (leBytes (BitVec.ofNat 8 m.downs.length) ++ (leBytes (BitVec.ofNat 32 m.commSize) ++
          (leBytes (BitVec.ofNat 32 m.commRank) ++ rest)))) = .fail := by
      intro γ f rest
      have : readMeta lr 9 size rank (leBytes (familyCode m.family) ++ (leBytes (BitVec.ofNat 8 m.downs.length) ++
          (leBytes (BitVec.ofNat 32 m.commSize) ++ (leBytes (BitVec.ofNat 32 m.commRank) ++ rest)))) = .fail := by
        unfold readMeta
        rw [if_pos (by decide), codec_step (codec_family lr _), codec_step (codec_value w8 lr _),
          check_step (by rw [hd]; simp; omega), codec_step (codec_value w32 lr _)]
        by_cases hs : size = m.commSize
        · rw [check_step (by rw [(small_int s1).1]; simp; omega), codec_step (codec_value w32 lr _),
            check_fails (by
              rw [(small_int (show m.commRank < 2 ^ 31 by omega)).1]
              simp only [decide_eq_false_iff_not]
              omega)]
        · rw [check_fails (by rw [(small_int s1).1]; simp; omega)]
      unfold FileParser.andThen
      rw [this]
      rfl
    unfold readMesh
    simp only [List.append_assoc]
    refine Eq.trans (codec_step (codec_bytes [0xa1#8, 0x1a#8])) ?_
    rw [check_step (by decide), if_neg (by decide)]
    refine Eq.trans (codec_step (b := []) (codec_give (9 : Int))) ?_
    rw [check_step (by decide), writeValue_le w8, List.append_eq, codec_step (codec_value w8 lr _), check_step (by cases z <;> rfl),
      writeValue_le w8, writeValue_le w8, writeValue_le w32, writeValue_le w32]
    exact key _ _

theorem wlist_ok : ∀ (l : List (Res FileBytes)), (∀ r ∈ l, ∃ b, r = .ok b) → ∃ b, wlist l = .ok b := by
  intro l
  induction l with
  | nil => intro _; exact ⟨[], rfl⟩
  | cons a l ih =>
    intro h
    obtain ⟨x, rfl⟩ := h a (by simp)
    obtain ⟨y, hy⟩ := ih (fun r hr => h r (List.mem_cons_of_mem _ hr))
    refine ⟨x ++ y, ?_⟩
    unfold wlist wcat
    rw [hy]; rfl

theorem wcat_of {a b : Res FileBytes} (ha : ∃ x, a = .ok x) (hb : ∃ y, b = .ok y) : ∃ c, wcat a b = .ok c := by
  obtain ⟨x, rfl⟩ := ha
  obtain ⟨y, rfl⟩ := hb
  exact ⟨x ++ y, rfl⟩

theorem writeString_ok (lw : Bool) {s : FileBytes} (h : s.length < 2 ^ 31) : ∃ b, writeString lw s = .ok b := by
  unfold writeString
  dsimp only
  rw [(small_int h).1]
  rw [if_neg (by omega)]
  exact ⟨_, rfl⟩

/-- A mesh within the limits of the format is written. -/
theorem C32_writes (lw : Bool) {m : FileMesh} (hm : Storable m) : ∃ b, writeMesh none lw m = .ok b := by
  have harr : ∀ {w : Nat} (a : List (BitVec w)), ∃ b, writeArray none lw (some a) = .ok b := fun a => ⟨_, rfl⟩
  refine wlist_ok _ ?_
  intro r hr
  simp only [List.mem_cons, List.not_mem_nil, or_false] at hr
  rcases hr with rfl | rfl | rfl | rfl | rfl | rfl | rfl | rfl
  · exact ⟨_, rfl⟩
  · exact ⟨_, rfl⟩
  · unfold writeMeta
    obtain ⟨p, hp⟩ := Option.isSome_iff_exists.1 hm.parting
    rw [hp]
    exact ⟨_, rfl⟩
  · exact ⟨_, rfl⟩
  · refine wlist_ok _ ?_
    intro r hr
    obtain ⟨i, hi⟩ := List.getElem?_of_mem hr
    rw [List.getElem?_mapIdx] at hi
    obtain ⟨⟨a, c⟩, hac, rfl⟩ := Option.map_eq_some_iff.1 hi
    refine wcat_of (harr a) ?_
    split
    · obtain ⟨_, _, _, h4⟩ := hm.down i a c hac
      obtain ⟨codes, rfl, _⟩ := h4 (by omega)
      exact harr codes
    · exact ⟨_, rfl⟩
  · refine wlist_ok _ ?_
    intro r hr
    obtain ⟨l, hl, rfl⟩ := List.mem_map.1 hr
    obtain ⟨i, hi⟩ := List.getElem?_of_mem hl
    have hg := hm.level i l hi
    refine wcat_of ⟨_, rfl⟩ (wcat_of (wlist_ok _ ?_) ?_)
    · intro r hr
      obtain ⟨t, ht, rfl⟩ := List.mem_map.1 hr
      have htg := hg.tags t ht
      obtain ⟨n, n1, _⟩ := htg.size
      obtain ⟨x, hx⟩ := writeString_ok lw htg.name
      unfold writeTag
      dsimp only
      rw [hx]
      cases hd : t.data <;> rw [hd] at n1 <;> obtain ⟨a, rfl, _⟩ := Option.map_eq_some_iff.1 n1 <;> exact ⟨_, rfl⟩
    · split
      · obtain ⟨o, ho, _⟩ := hg.owners (by assumption)
        rw [ho]
        exact wcat_of (harr _) (harr _)
      · exact ⟨_, rfl⟩
  · refine wcat_of ⟨_, rfl⟩ (wlist_ok _ ?_)
    intro r hr
    obtain ⟨s, hs, rfl⟩ := List.mem_map.1 hr
    exact wcat_of (writeString_ok lw (hm.pairs s hs).1) ⟨_, rfl⟩
  · split
    · refine wcat_of ⟨_, rfl⟩ (wlist_ok _ ?_)
      intro r hr
      obtain ⟨i, hi⟩ := List.getElem?_of_mem hr
      rw [List.getElem?_mapIdx] at hi
      obtain ⟨l, hl, rfl⟩ := Option.map_eq_some_iff.1 hi
      exact wcat_of (harr _) (harr _)
    · exact ⟨_, rfl⟩

/-- A triangle with coordinates, a class set with the given pairs, and a parent of its last edge. -/
def triMesh (tags : List FileTag) (pairs : List (BitVec 32 × BitVec 32)) : FileMesh where
  family := .simplex
  commSize := 1
  commRank := 0
  parting := some .elemBased
  nghost := 0#32
  hints := some [(1#64, 2#64, 3#64)]
  nverts := 3#32
  downs := [([0#32, 1#32, 1#32, 2#32, 2#32, 0#32], none), ([0#32, 1#32, 2#32], some [0#8, 2#8, 4#8])]
  levels := [⟨tags, none, none⟩, ⟨[], none, some ([0#32, 0#32, 1#32], [0#8, 0#8, 5#8])⟩, ⟨[], none, none⟩]
  sets := [([97#8], pairs)]

theorem triMesh_storable {tags : List FileTag} {pairs : List (BitVec 32 × BitVec 32)} (ht : ∀ t ∈ tags, GoodTag 3 t) (hn : (tags.map FileTag.name).Nodup)
    (hl : tags.length ≤ 127) (hp : pairs.length < 2 ^ 31) : Storable (triMesh tags pairs) := by
  refine ⟨⟨show 1 ≤ 2 by decide, show 2 ≤ 3 by decide⟩, rfl, ⟨show 1 < 2 ^ 31 by decide, show 0 < 1 by decide⟩, rfl, ?_,
    show 0 ≤ (3#32).toInt by decide, ?_, ?_, List.pairwise_singleton _ _, show 1 < 2 ^ 31 by decide, ?_⟩
  · intro axes h; cases h; decide
  · intro d a c h
    match d, h with
    | 0, h => cases h; exact ⟨by decide, show (6 : Int) % elementDegree .simplex 1 0 = 0 by decide, fun _ => rfl, fun h => absurd h (by omega)⟩
    | 1, h => cases h; exact ⟨by decide, show (3 : Int) % elementDegree .simplex 2 1 = 0 by decide, fun h => absurd h (by omega), fun _ => ⟨_, rfl, by decide⟩⟩
    | d + 2, h => simp [triMesh] at h
  · intro d l h
    match d, h with
    | 0, h => cases h; exact ⟨ht, hn, hl, fun h => absurd h (show ¬ 1 < 1 by decide), fun p h => by cases h⟩
    | 1, h =>
      cases h
      exact ⟨by simp, by simp, by decide, fun h => absurd h (show ¬ 1 < 1 by decide), fun p h => by cases h; decide⟩
    | 2, h => cases h; exact ⟨by simp, by simp, by decide, fun h => absurd h (show ¬ 1 < 1 by decide), fun p h => by cases h⟩
    | d + 3, h => simp [triMesh] at h
  · intro s hs
    cases List.mem_singleton.1 hs
    exact ⟨show 1 < 2 ^ 31 by decide, hp⟩

def coordsTag : FileTag := ⟨[120#8], 2, .f64 (some [0#64, 0#64, 0x3ff0000000000000#64, 0#64, 0#64, 0x3ff0000000000000#64])⟩

theorem coordsTag_good : GoodTag 3 coordsTag := ⟨by decide, by decide, by decide, 6, by decide, by decide, by decide⟩

/-- The hypotheses of the round trip are met by a triangle. -/
example : Storable (triMesh [coordsTag] [(1#32, 5#32)]) ∧ (∀ s ∈ (triMesh [coordsTag] [(1#32, 5#32)]).sets, s.2 ≠ []) ∧
    ∃ b, writeMesh none false (triMesh [coordsTag] [(1#32, 5#32)]) = .ok b := by
  have h := triMesh_storable (tags := [coordsTag]) (pairs := [(1#32, 5#32)]) (by simpa using coordsTag_good) (by simp) (by decide) (by decide)
  exact ⟨h, by simp [triMesh], C32_writes false h⟩

/-- A class set without pairs is not in the mesh that is read. -/
theorem C32_refuted : ∃ (m m' : FileMesh) (b : FileBytes), Storable m ∧ writeMesh none true m = .ok b ∧ readMesh none true 9 1 0 b = .ok (m', []) ∧
    m.sets ≠ [] ∧ m'.sets = [] := by
  have h := triMesh_storable (tags := [coordsTag]) (pairs := []) (by simpa using coordsTag_good) (by simp) (by decide) (by decide)
  obtain ⟨b, hb⟩ := C32_writes true h
  refine ⟨_, readBack (triMesh [coordsTag] []), b, h, hb, ?_, by simp [triMesh], ?_⟩
  · have := (codec_mesh (z := none) (fun y hy => by cases hy) true true h hb).reads []
    rwa [List.append_nil] at this
  · rfl

/-- Writing a mesh with a tag that has no array yet is undefined: its size is asked for. -/
theorem C32_array_refuted : addTag 3 [] ⟨[120#8], 2, .f64 none⟩ = .ok [⟨[120#8], 2, .f64 none⟩] ∧
    writeMesh none true (triMesh [⟨[120#8], 2, .f64 none⟩] []) = .ub :=
  ⟨by decide, by decide +kernel⟩

/-- A tag with 128 components, which are not checked if it replaces one with the same name. -/
def wideTag : FileTag := ⟨[120#8], 128, .i8 (some (List.replicate 384 7#8))⟩

/-- A mesh with such a tag is written, but the file is refused. -/
theorem C32_comps_refuted : ∃ b, addTag 3 [coordsTag] wideTag = .ok [wideTag] ∧ writeMesh none true (triMesh [wideTag] []) = .ok b ∧
    readMesh none true 9 1 0 b = .fail :=
  ⟨_, by decide +kernel, rfl, by decide +kernel⟩

/-- The mesh of one triangle written by a single rank cannot be read on two ranks. -/
example (b : FileBytes) (h : writeMesh none true (triMesh [coordsTag] []) = .ok b) : readMesh none true 9 2 1 b = .fail :=
  C32_other_rank true true (triMesh_storable (tags := [coordsTag]) (pairs := []) (by simpa using coordsTag_good) (by simp) (by decide) (by decide)) h
    (Or.inl (by decide))

end OmegaH
