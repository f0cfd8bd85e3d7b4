import Verif.Model.Pool

/-! # C16 — the memory pool hands out distinct, large enough blocks and returns each exactly once -/

namespace OmegaH

theorem funSet_same {β : Type} (f : Nat → β) (s : Nat) (v : β) : funSet f s v s = v := by
  simp [funSet]

theorem listedBlocks_succ (f : Nat → List Nat) (n : Nat) :
    listedBlocks f (n + 1) = listedBlocks f n ++ (f n).map (fun p => (p, 2 ^ n)) := by
  simp [listedBlocks, List.range_succ, List.flatMap_append]

theorem listedBlocks_congr (f g : Nat → List Nat) (n : Nat) (h : ∀ i < n, f i = g i) :
    listedBlocks f n = listedBlocks g n := by
  induction n with
  | zero => rfl
  | succ n ih =>
    rw [listedBlocks_succ, listedBlocks_succ, ih (fun i hi => h i (by omega)), h n (by omega)]

/-- Adding one block to one list. -/
theorem listedBlocks_add (f : Nat → List Nat) (s p : Nat) (g : List Nat) (n : Nat) (hs : s < n)
    (h : g.Perm (p :: f s)) :
    (listedBlocks (funSet f s g) n).Perm ((p, 2 ^ s) :: listedBlocks f n) := by
  induction n with
  | zero => omega
  | succ n ih =>
    rw [listedBlocks_succ, listedBlocks_succ]
    by_cases hsn : s = n
    · subst hsn
      rw [listedBlocks_congr (funSet f s g) f s (fun i hi => by simp [funSet, show i ≠ s by omega]),
        funSet_same]
      refine (List.Perm.append_left _ (h.map _)).trans ?_
      exact List.perm_middle
    · have e : funSet f s g n = f n := by simp [funSet, show n ≠ s by omega]
      rw [e]
      exact (ih (by omega)).append_right _

theorem mem_listedBlocks (f : Nat → List Nat) (n : Nat) (p sz : Nat) :
    (p, sz) ∈ listedBlocks f n ↔ ∃ i < n, p ∈ f i ∧ sz = 2 ^ i := by
  simp only [listedBlocks, List.mem_flatMap, List.mem_range, List.mem_map, Prod.mk.injEq]
  constructor
  · rintro ⟨i, hi, q, hq, rfl, rfl⟩; exact ⟨i, hi, hq, rfl⟩
  · rintro ⟨i, hi, hp, rfl⟩; exact ⟨i, hi, p, hp, rfl, rfl⟩

/-- Freeing a sub-collection of what is outstanding succeeds and leaves the rest. -/
theorem sysFreeAll_ok : ∀ (bs out rest : List (Nat × Nat)), out.Perm (bs ++ rest) →
    ∃ out', sysFreeAll out bs = .ok out' ∧ out'.Perm rest
  | [], out, rest, h => ⟨out, rfl, h⟩
  | b :: bs, out, rest, h => by
    have hb : b ∈ out := h.mem_iff.2 (by simp)
    have h' : (out.erase b).Perm (bs ++ rest) := by
      have := h.erase b
      rwa [List.cons_append, List.erase_cons_head] at this
    obtain ⟨o, e, p⟩ := sysFreeAll_ok bs _ rest h'
    exact ⟨o, by rw [sysFreeAll, sysFree, if_pos hb]; exact e, p⟩

theorem poolShift_spec {size s : Nat} (h : poolShift size = .ok s) :
    s < 64 ∧ size ≤ 2 ^ s ∧ ∀ t < s, 2 ^ t < size := by
  unfold poolShift at h
  cases e : (List.range 64).find? (fun s => !decide (2 ^ s < size)) with
  | none => rw [e] at h; simp [Res.ofOption] at h
  | some s' =>
    rw [e] at h
    simp only [Res.ofOption, Res.ok.injEq] at h
    subst h
    rw [List.find?_range_eq_some] at e
    simp only [Bool.not_eq_eq_eq_not, Bool.not_true, decide_eq_false_iff_not, Nat.not_lt,
      List.mem_range, Bool.not_not, decide_eq_true_eq] at e
    exact ⟨e.2.1, e.1, fun t ht => e.2.2 t ht⟩

theorem poolShift_total {size : Nat} (h : size ≤ 2 ^ 63) : ∃ s, poolShift size = .ok s := by
  unfold poolShift
  cases e : (List.range 64).find? (fun s => !decide (2 ^ s < size)) with
  | none =>
    rw [List.find?_eq_none] at e
    have := e 63 (by simp)
    simp at this
    omega
  | some s' => exact ⟨s', rfl⟩

theorem poolShift_unique {size s t : Nat} (h : poolShift size = .ok s) (ht : size ≤ 2 ^ t)
    (hm : ∀ u < t, 2 ^ u < size) : s = t := by
  obtain ⟨_, h2, h3⟩ := poolShift_spec h
  rcases Nat.lt_trichotomy s t with hlt | heq | hgt
  · have := hm s hlt; omega
  · exact heq
  · have := h3 t hgt; omega

/-- What is true of the pool and of the client's list at all times. -/
structure PoolInv (P : Pool) (live : List (Nat × Nat)) : Prop where
  /-- every outstanding block is in exactly one list, and conversely -/
  out : P.out.Perm (listedBlocks P.used 64 ++ listedBlocks P.free 64)
  /-- no pointer is outstanding twice -/
  nodup : (P.out.map Prod.fst).Nodup
  /-- the used blocks are those the client holds -/
  held : (live.map Prod.fst).Perm ((listedBlocks P.used 64).map Prod.fst)
  /-- a block the client holds is listed under the size class of its request -/
  class_ : ∀ b ∈ live, ∃ s < 64, b.1 ∈ P.used s ∧ b.2 ≤ 2 ^ s ∧ ∀ t < s, 2 ^ t < b.2

theorem PoolInv.init : PoolInv Pool.init [] := by
  have h : listedBlocks (fun _ => []) 64 = [] := by simp [listedBlocks]
  constructor
  · simp [Pool.init, h]
  · simp [Pool.init]
  · simp [Pool.init, h]
  · simp

/-- Adding a used block, in terms of the invariant. -/
theorem PoolInv.add_used {P : Pool} {live : List (Nat × Nat)} {used' : Nat → List Nat} {s p size : Nat}
    (hclass : ∀ b ∈ live, ∃ s < 64, b.1 ∈ P.used s ∧ b.2 ≤ 2 ^ s ∧ ∀ t < s, 2 ^ t < b.2)
    (hs : s < 64) (h2 : size ≤ 2 ^ s) (h3 : ∀ t < s, 2 ^ t < size)
    (hu : used' = funSet P.used s (P.used s ++ [p])) :
    ∀ b ∈ (p, size) :: live, ∃ s < 64, b.1 ∈ used' s ∧ b.2 ≤ 2 ^ s ∧ ∀ t < s, 2 ^ t < b.2 := by
  intro b hb
  rcases List.mem_cons.1 hb with rfl | hb
  · exact ⟨s, hs, by rw [hu, funSet_same]; simp, h2, h3⟩
  · obtain ⟨s', hs', hm, r⟩ := hclass b hb
    refine ⟨s', hs', ?_, r⟩
    rw [hu]; unfold funSet
    split
    · rename_i e; subst e; simp [hm]
    · exact hm

theorem PoolInv.push_new {P : Pool} {live : List (Nat × Nat)} {s p size n : Nat}
    (hi : PoolInv P live) (hs : s < 64) (h2 : size ≤ 2 ^ s) (h3 : ∀ t < s, 2 ^ t < size)
    (hf : p ∉ P.out.map Prod.fst) :
    PoolInv { P with used := funSet P.used s (P.used s ++ [p]), out := (p, 2 ^ s) :: P.out,
                     calls := n } ((p, size) :: live) := by
  have hp := listedBlocks_add P.used s p (P.used s ++ [p]) 64 hs (List.perm_append_singleton p _)
  constructor
  · exact (List.Perm.cons _ hi.out).trans (hp.symm.append_right _)
  · simp only [List.map_cons, List.nodup_cons]
    exact ⟨hf, hi.nodup⟩
  · refine (List.Perm.cons p hi.held).trans ?_
    exact (hp.map Prod.fst).symm
  · exact PoolInv.add_used hi.class_ hs h2 h3 rfl

theorem PoolInv.release {P : Pool} {live : List (Nat × Nat)} (hi : PoolInv P live) :
    ∃ P', P.releaseFree = .ok P' ∧ PoolInv P' live ∧ (∀ i, P'.free i = []) ∧ P'.used = P.used := by
  obtain ⟨o, e, p⟩ := sysFreeAll_ok (listedBlocks P.free 64) P.out (listedBlocks P.used 64)
    (hi.out.trans List.perm_append_comm)
  refine ⟨{ P with free := fun _ => [], out := o }, by rw [Pool.releaseFree, e, Res.bind_ok],
    ⟨?_, ?_, hi.held, hi.class_⟩, fun _ => rfl, rfl⟩
  · have h : listedBlocks (fun _ => []) 64 = [] := by simp [listedBlocks]
    simp only [h, List.append_nil]
    exact p
  · have hn := (hi.out.map Prod.fst).nodup_iff.1 hi.nodup
    rw [List.map_append] at hn
    exact (p.map Prod.fst).nodup_iff.2 (List.nodup_append.1 hn).1

theorem PoolInv.reuse {P : Pool} {live : List (Nat × Nat)} {s p size : Nat}
    (hi : PoolInv P live) (hs : s < 64) (h2 : size ≤ 2 ^ s) (h3 : ∀ t < s, 2 ^ t < size)
    (hl : (P.free s).getLast? = some p) :
    PoolInv { P with used := funSet P.used s (P.used s ++ [p]),
                     free := funSet P.free s (P.free s).dropLast } ((p, size) :: live) := by
  have hp := listedBlocks_add P.used s p (P.used s ++ [p]) 64 hs (List.perm_append_singleton p _)
  have hfs : P.free s = (P.free s).dropLast ++ [p] := by
    obtain ⟨ys, hy⟩ := List.getLast?_eq_some_iff.1 hl
    rw [hy]; simp
  have hq := listedBlocks_add (funSet P.free s (P.free s).dropLast) s p (P.free s) 64 hs
    (by rw [funSet_same]; rw (occs := .pos [1]) [hfs]; exact List.perm_append_singleton p _)
  have hback : funSet (funSet P.free s (P.free s).dropLast) s (P.free s) = P.free := by
    funext i; unfold funSet; split
    · rename_i e; rw [e]
    · rfl
  rw [hback] at hq
  constructor
  · refine hi.out.trans ((List.Perm.append_left _ hq).trans ?_)
    refine List.perm_middle.trans ?_
    exact (hp.symm.append_right _)
  · exact hi.nodup
  · exact (List.Perm.cons p hi.held).trans (hp.map Prod.fst).symm
  · exact PoolInv.add_used hi.class_ hs h2 h3 rfl

/-- One allocation: either it fails, and then the system refused twice although the pool had given
all its idle blocks back; or it gives a block as large as requested that the client did not hold. -/
theorem PoolInv.allocate (m : SysMalloc) {P : Pool} {live : List (Nat × Nat)} (hi : PoolInv P live)
    {size : Nat} (hsz : size ≤ 2 ^ 63) :
    P.allocate m size = .fail ∨
    ∃ p P', P.allocate m size = .ok (p, P') ∧ PoolInv P' ((p, size) :: live) := by
  obtain ⟨s, es⟩ := poolShift_total hsz
  obtain ⟨hs, h2, h3⟩ := poolShift_spec es
  unfold Pool.allocate
  rw [es, Res.bind_ok]
  cases hl : (P.free s).getLast? with
  | some p => exact .inr ⟨p, _, rfl, hi.reuse hs h2 h3 hl⟩
  | none =>
    simp only
    unfold Pool.sysMalloc
    cases hm : m.get P.calls P.out (2 ^ s) with
    | some p => exact .inr ⟨p, _, rfl, hi.push_new hs h2 h3 (m.fresh _ _ _ _ hm)⟩
    | none =>
      simp only
      have hi1 : PoolInv { P with calls := P.calls + 1 } live :=
        ⟨hi.out, hi.nodup, hi.held, hi.class_⟩
      obtain ⟨P2, e2, hi2, _, _⟩ := hi1.release
      rw [e2, Res.bind_ok]
      cases hm2 : m.get P2.calls P2.out (2 ^ s) with
      | some p => exact .inr ⟨p, _, rfl, hi2.push_new hs h2 h3 (m.fresh _ _ _ _ hm2)⟩
      | none => exact .inl rfl

theorem listed_used_nodup {P : Pool} {live : List (Nat × Nat)} (hi : PoolInv P live) :
    ((listedBlocks P.used 64).map Prod.fst).Nodup := by
  have hn := (hi.out.map Prod.fst).nodup_iff.1 hi.nodup
  rw [List.map_append] at hn
  exact (List.nodup_append.1 hn).1

theorem used_unique (f : Nat → List Nat) : ∀ n, ((listedBlocks f n).map Prod.fst).Nodup →
    ∀ i < n, ∀ j < n, ∀ p, p ∈ f i → p ∈ f j → i = j
  | 0, _, i, hi, _, _, _, _, _ => by omega
  | n + 1, h, i, hi, j, hj, p, hpi, hpj => by
    rw [listedBlocks_succ, List.map_append] at h
    obtain ⟨h1, _, h3⟩ := List.nodup_append.1 h
    have key : ∀ k < n, p ∈ f k → p ∈ f n → False := fun k hk hpk hpn =>
      h3 p (List.mem_map.2 ⟨(p, 2 ^ k), (mem_listedBlocks f n p _).2 ⟨k, hk, hpk, rfl⟩, rfl⟩)
        p (by simpa using hpn) rfl
    by_cases hin : i = n
    · by_cases hjn : j = n
      · omega
      · subst hin; exact (key j (by omega) hpj hpi).elim
    · by_cases hjn : j = n
      · subst hjn; exact (key i (by omega) hpi hpj).elim
      · exact used_unique f n h1 i (by omega) j (by omega) p hpi hpj

theorem eraseP_fst : ∀ (live : List (Nat × Nat)) (p : Nat),
    (live.eraseP (fun b => b.1 == p)).map Prod.fst = (live.map Prod.fst).erase p
  | [], _ => rfl
  | b :: live, p => by
    rw [List.map_cons]
    by_cases h : b.1 = p
    · rw [List.eraseP_cons_of_pos (by simp [h]), h, List.erase_cons_head]
    · rw [List.eraseP_cons_of_neg (by simp [h]), List.map_cons, eraseP_fst live p,
        List.erase_cons_tail (by simp [h])]

theorem PoolInv.deallocate {P P' : Pool} {live : List (Nat × Nat)} {p size : Nat}
    (hi : PoolInv P live) (h : P.deallocate p size = .ok P') :
    PoolInv P' (live.eraseP (fun b => b.1 == p)) := by
  unfold Pool.deallocate at h
  obtain ⟨s, es, h⟩ := Res.bind_eq_ok.1 h
  obtain ⟨hs, h2, h3⟩ := poolShift_spec es
  by_cases hp : p ∈ P.used s
  rotate_left
  · rw [if_neg hp] at h; simp at h
  rw [if_pos hp] at h
  simp only [Res.ok.injEq] at h
  subst h
  have hq := listedBlocks_add P.free s p (P.free s ++ [p]) 64 hs (List.perm_append_singleton p _)
  have hu := listedBlocks_add (funSet P.used s ((P.used s).erase p)) s p (P.used s) 64 hs
    (by rw [funSet_same]; exact List.perm_cons_erase hp)
  have hback : funSet (funSet P.used s ((P.used s).erase p)) s (P.used s) = P.used := by
    funext i; unfold funSet; split
    · rename_i e; rw [e]
    · rfl
  rw [hback] at hu
  have hnd := listed_used_nodup hi
  constructor
  · refine hi.out.trans ((hu.append_right _).trans ?_)
    rw [List.cons_append]
    exact List.perm_middle.symm.trans (List.Perm.append_left _ hq.symm)
  · exact hi.nodup
  · rw [eraseP_fst]
    have h1 := (hi.held.trans (hu.map Prod.fst)).erase p
    rwa [List.map_cons, List.erase_cons_head] at h1
  · intro b hb
    obtain ⟨s', hs', hm, r⟩ := hi.class_ b (List.mem_of_mem_eraseP hb)
    refine ⟨s', hs', ?_, r⟩
    show b.1 ∈ funSet P.used s ((P.used s).erase p) s'
    unfold funSet
    split
    · rename_i e; subst e
      have hne : b.1 ≠ p := by
        intro e
        have hbn : p ∈ (live.map Prod.fst).erase p := by
          rw [← eraseP_fst]; exact List.mem_map.2 ⟨b, hb, e⟩
        have hln : (live.map Prod.fst).Nodup := hi.held.nodup_iff.2 hnd
        exact (List.Nodup.not_mem_erase hln) hbn
      exact (List.mem_erase_of_ne hne).2 hm
    · exact hm

/-- Sizes the pool can serve at all. -/
def PoolOp.served : PoolOp → Prop
  | .alloc size => size ≤ 2 ^ 63
  | .dealloc _ size => size ≤ 2 ^ 63

theorem runPool_inv (m : SysMalloc) : ∀ (ops : List PoolOp) (P : Pool) (live : List (Nat × Nat)),
    PoolInv P live → (∀ o ∈ ops, o.served) →
    runPool m ops (P, live) = .fail ∨
      ∃ P' live', runPool m ops (P, live) = .ok (P', live') ∧ PoolInv P' live'
  | [], P, live, hi, _ => .inr ⟨P, live, rfl, hi⟩
  | .alloc size :: ops, P, live, hi, hs => by
    rw [runPool]
    rcases hi.allocate m (hs _ (List.mem_cons_self ..)) with e | ⟨p, P', e, hi'⟩
    · rw [e]; exact .inl rfl
    · rw [e, Res.bind_ok]
      exact runPool_inv m ops P' _ hi' (fun o ho => hs o (List.mem_cons_of_mem _ ho))
  | .dealloc p size :: ops, P, live, hi, hs => by
    rw [runPool]
    cases e : P.deallocate p size with
    | ok P' =>
      rw [Res.bind_ok]
      exact runPool_inv m ops P' _ (hi.deallocate e) (fun o ho => hs o (List.mem_cons_of_mem _ ho))
    | fail => exact .inl rfl
    | ub =>
      exfalso
      obtain ⟨s, es⟩ := poolShift_total (size := size) (hs _ (List.mem_cons_self ..))
      unfold Pool.deallocate at e
      rw [es, Res.bind_ok] at e
      split at e <;> simp at e

/-- After any calls with sizes up to 2^63: the pool has not run into undefined behaviour (in
particular it has freed nothing twice). Either it reported a failure, or the blocks the client holds
are pairwise distinct; each is outstanding in the system with a size at least as large as
requested and less than twice as large; and the outstanding blocks are exactly the held and the idle
ones, each in one place. -/
theorem C16_blocks_distinct_and_accounted (m : SysMalloc) (ops : List PoolOp)
    (hs : ∀ o ∈ ops, o.served) :
    runPool m ops (Pool.init, []) = .fail ∨
    ∃ P live, runPool m ops (Pool.init, []) = .ok (P, live) ∧
      (live.map Prod.fst).Nodup ∧
      (∀ b ∈ live, ∃ cap, (b.1, cap) ∈ P.out ∧ b.2 ≤ cap ∧ (1 < cap → cap < 2 * b.2)) ∧
      (P.out.map Prod.fst).Nodup ∧
      (P.out.map Prod.fst).Perm (live.map Prod.fst ++ (listedBlocks P.free 64).map Prod.fst) := by
  rcases runPool_inv m ops Pool.init [] PoolInv.init hs with e | ⟨P, live, e, hi⟩
  · exact .inl e
  · refine .inr ⟨P, live, e, hi.held.nodup_iff.2 (listed_used_nodup hi), ?_, hi.nodup, ?_⟩
    · intro b hb
      obtain ⟨s, hs, hm, h2, h3⟩ := hi.class_ b hb
      refine ⟨2 ^ s, ?_, h2, ?_⟩
      · refine hi.out.mem_iff.2 (List.mem_append_left _ ?_)
        exact (mem_listedBlocks _ _ _ _).2 ⟨s, hs, hm, rfl⟩
      · intro h
        match s, h with
        | 0, h => simp at h
        | t + 1, _ => have := h3 t (by omega); rw [Nat.pow_succ]; omega
    · have h1 := hi.out.map Prod.fst
      rw [List.map_append] at h1
      exact h1.trans (hi.held.symm.append_right _)

/-- Every reachable pool satisfies the invariant. -/
theorem PoolInv.of_run {m : SysMalloc} {ops : List PoolOp} {P : Pool} {live : List (Nat × Nat)}
    (hs : ∀ o ∈ ops, o.served) (h : runPool m ops (Pool.init, []) = .ok (P, live)) :
    PoolInv P live := by
  rcases runPool_inv m ops Pool.init [] PoolInv.init hs with e | ⟨P', live', e, hi⟩
  · rw [e] at h; simp at h
  · rw [e] at h; simp only [Res.ok.injEq, Prod.mk.injEq] at h
    obtain ⟨rfl, rfl⟩ := h; exact hi

/-- Destroying the pool after any calls returns every outstanding block to the system exactly once
(freeing one twice would be undefined, and none is left). -/
theorem C16_destroy_returns_all (m : SysMalloc) (ops : List PoolOp) (hs : ∀ o ∈ ops, o.served)
    (P : Pool) (live : List (Nat × Nat)) (h : runPool m ops (Pool.init, []) = .ok (P, live)) :
    P.destroy = .ok [] := by
  have hi := PoolInv.of_run hs h
  obtain ⟨o, e, p⟩ := sysFreeAll_ok (listedBlocks P.used 64) P.out _ hi.out
  obtain ⟨o', e', p'⟩ := sysFreeAll_ok (listedBlocks P.free 64) o [] (by simpa using p)
  rw [Pool.destroy, e, Res.bind_ok, e', List.Perm.eq_nil p']

/-- A request is served from an idle block exactly when one of the same size class (the smallest
power of two not below the request) is idle, and then it is the most recently returned one; the
system is not asked. Otherwise the block is a new one of exactly that size. -/
theorem C16_reuse_same_class (m : SysMalloc) (P P' : Pool) (size p s : Nat)
    (hs : s < 64) (h2 : size ≤ 2 ^ s) (h3 : ∀ t < s, 2 ^ t < size)
    (h : P.allocate m size = .ok (p, P')) :
    (P.free s ≠ [] → (P.free s).getLast? = some p ∧ P'.out = P.out ∧ P'.calls = P.calls) ∧
    (P.free s = [] → (p, 2 ^ s) ∈ P'.out ∧ P.calls < P'.calls) := by
  obtain ⟨s', es⟩ := poolShift_total (size := size)
    (Nat.le_trans h2 (Nat.pow_le_pow_right (by omega) (by omega)))
  obtain rfl := poolShift_unique es h2 h3
  unfold Pool.allocate at h
  rw [es, Res.bind_ok] at h
  constructor
  · intro hne
    cases hl : (P.free s').getLast? with
    | none => exact absurd (List.getLast?_eq_none_iff.1 hl) hne
    | some q =>
      rw [hl] at h
      simp only [Res.ok.injEq, Prod.mk.injEq] at h
      obtain ⟨rfl, rfl⟩ := h
      exact ⟨rfl, rfl, rfl⟩
  · intro he
    rw [he] at h
    simp only [List.getLast?_nil] at h
    unfold Pool.sysMalloc at h
    cases hm : m.get P.calls P.out (2 ^ s') with
    | some q =>
      rw [hm] at h
      simp only [Res.ok.injEq, Prod.mk.injEq] at h
      obtain ⟨rfl, rfl⟩ := h
      exact ⟨List.mem_cons_self .., Nat.lt_succ_self _⟩
    | none =>
      rw [hm] at h
      simp only at h
      obtain ⟨P2, e2, h⟩ := Res.bind_eq_ok.1 h
      have hc : P2.calls = P.calls + 1 := by
        unfold Pool.releaseFree at e2
        obtain ⟨o, _, e⟩ := Res.bind_eq_ok.1 e2
        simp only [Res.ok.injEq] at e
        rw [← e]
      cases hm2 : m.get P2.calls P2.out (2 ^ s') with
      | some q =>
        rw [hm2] at h
        simp only [Res.ok.injEq, Prod.mk.injEq] at h
        obtain ⟨rfl, rfl⟩ := h
        exact ⟨List.mem_cons_self .., by simp only [hc]; omega⟩
      | none => rw [hm2] at h; simp at h

/-- An allocation of a servable size fails only if the system refuses the block twice, the second
time when the pool has no idle block left. -/
theorem C16_failure_means_exhausted (m : SysMalloc) (ops : List PoolOp) (hs : ∀ o ∈ ops, o.served)
    (P : Pool) (live : List (Nat × Nat)) (h : runPool m ops (Pool.init, []) = .ok (P, live))
    (size : Nat) (hsz : size ≤ 2 ^ 63) (hf : P.allocate m size = .fail) :
    ∃ cap out, size ≤ cap ∧ m.get P.calls P.out cap = none ∧
      (out.map Prod.fst).Perm (live.map Prod.fst) ∧ m.get (P.calls + 1) out cap = none := by
  have hi := PoolInv.of_run hs h
  obtain ⟨s, es⟩ := poolShift_total hsz
  obtain ⟨_, h2, _⟩ := poolShift_spec es
  unfold Pool.allocate at hf
  rw [es, Res.bind_ok] at hf
  cases hl : (P.free s).getLast? with
  | some q => rw [hl] at hf; simp at hf
  | none =>
    rw [hl] at hf
    simp only at hf
    unfold Pool.sysMalloc at hf
    cases hm : m.get P.calls P.out (2 ^ s) with
    | some q => rw [hm] at hf; simp at hf
    | none =>
      rw [hm] at hf
      simp only at hf
      have hi1 : PoolInv { P with calls := P.calls + 1 } live :=
        ⟨hi.out, hi.nodup, hi.held, hi.class_⟩
      obtain ⟨P2, e2, hi2, hfr, hu⟩ := hi1.release
      have hc : P2.calls = P.calls + 1 := by
        unfold Pool.releaseFree at e2
        obtain ⟨o, _, e⟩ := Res.bind_eq_ok.1 e2
        simp only [Res.ok.injEq] at e
        rw [← e]
      rw [e2, Res.bind_ok] at hf
      cases hm2 : m.get P2.calls P2.out (2 ^ s) with
      | some q => rw [hm2] at hf; simp at hf
      | none =>
        refine ⟨2 ^ s, P2.out, h2, hm, ?_, by rw [← hc]; exact hm2⟩
        have hempty : listedBlocks P2.free 64 = [] := by
          rw [listedBlocks_congr P2.free (fun _ => []) 64 (fun i _ => hfr i)]; simp [listedBlocks]
        have h1 := hi2.out.map Prod.fst
        rw [hempty, List.append_nil] at h1
        exact h1.trans hi2.held.symm

/-- Handing a held block back with its own size always works; it is then idle and no longer held.
Handing back a pointer that is not held is reported as a failure. -/
theorem C16_deallocate (m : SysMalloc) (ops : List PoolOp) (hs : ∀ o ∈ ops, o.served)
    (P : Pool) (live : List (Nat × Nat)) (h : runPool m ops (Pool.init, []) = .ok (P, live)) :
    (∀ b ∈ live, ∃ P', P.deallocate b.1 b.2 = .ok P' ∧ P'.out = P.out ∧
      ∃ s < 64, (P'.free s).getLast? = some b.1) ∧
    (∀ p size, size ≤ 2 ^ 63 → p ∉ live.map Prod.fst → P.deallocate p size = .fail) := by
  have hi := PoolInv.of_run hs h
  constructor
  · intro b hb
    obtain ⟨s, hs, hm, h2, h3⟩ := hi.class_ b hb
    obtain ⟨s', es⟩ := poolShift_total (size := b.2)
      (Nat.le_trans h2 (Nat.pow_le_pow_right (by omega) (by omega)))
    obtain rfl := poolShift_unique es h2 h3
    refine ⟨{ P with free := funSet P.free s' (P.free s' ++ [b.1]),
                     used := funSet P.used s' ((P.used s').erase b.1) },
      by rw [Pool.deallocate, es, Res.bind_ok, if_pos hm], rfl, s', hs, ?_⟩
    show (funSet P.free s' (P.free s' ++ [b.1]) s').getLast? = _
    rw [funSet_same]; simp
  · intro p size hsz hp
    obtain ⟨s, es⟩ := poolShift_total hsz
    have hs := (poolShift_spec es).1
    rw [Pool.deallocate, es, Res.bind_ok, if_neg]
    intro hm
    apply hp
    refine hi.held.mem_iff.2 ?_
    exact List.mem_map.2 ⟨(p, 2 ^ s), (mem_listedBlocks _ _ _ _).2 ⟨s, hs, hm, rfl⟩, rfl⟩

/-- The limits of the claim: a request above 2^63 bytes shifts by 64 bits, which is undefined. -/
theorem C16_huge_request_refuted (m : SysMalloc) (P : Pool) (size : Nat) (h : 2 ^ 63 < size) :
    P.allocate m size = .ub := by
  have : poolShift size = .ub := by
    unfold poolShift
    have e : (List.range 64).find? (fun s => !decide (2 ^ s < size)) = none := by
      rw [List.find?_eq_none]
      intro s hs
      have : 2 ^ s ≤ 2 ^ 63 := Nat.pow_le_pow_right (by omega) (by have := List.mem_range.1 hs; omega)
      simp; omega
    rw [e]; rfl
  rw [Pool.allocate, this]; rfl

/-! Non-vacuity: a system allocator that hands out ever larger addresses, and a history with reuse. -/

/-- Hands out the number of the call plus the largest outstanding address, plus one. -/
def bumpMalloc : SysMalloc where
  get t out _ := some (t + 1 + (out.map Prod.fst).foldr max 0)
  fresh := by
    intro t out size p h hm
    have key : ∀ l : List Nat, ∀ x ∈ l, x ≤ l.foldr max 0 := by
      intro l
      induction l with
      | nil => simp
      | cons y l ih =>
        intro x hx
        rcases List.mem_cons.1 hx with rfl | hx
        · simp only [List.foldr_cons]; omega
        · have := ih x hx; simp only [List.foldr_cons]; omega
    have := key _ p hm
    simp only [Option.some.injEq] at h
    omega

example : ∃ P live, runPool bumpMalloc [.alloc 5, .alloc 0, .dealloc 1 5, .alloc 8, .alloc 7]
    (Pool.init, []) = .ok (P, live) ∧ live = [(6, 7), (1, 8), (3, 0)] ∧ P.out = [(6, 8), (3, 1), (1, 8)] :=
  ⟨_, _, rfl, by decide +kernel, by decide +kernel⟩
example : (Pool.init.deallocate 7 3 matches .fail) = true := by decide +kernel

end OmegaH
