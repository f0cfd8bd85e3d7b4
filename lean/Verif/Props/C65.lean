import Verif.Lemmas.ModifyNumbers
import Verif.Props.C42
/-!
# C65: global numbers and owners after entities are replaced on many ranks
-/
namespace OmegaH
open Spec

instance : Inhabited NewNumbers := ⟨⟨[], [], [], [], 0⟩⟩

section
variable {n E : Nat} {keepMods : Bool} {rank : Nat → ModifyRank} {same : Nat → List Nat} {P : Nat → Nat}
    {mds : Nat → Nat → List Nat} {rep : Nat → Nat → Nat → Nat} {L : Nat → Nat → Nat → List (Nat × Int)}
    {gl : Nat → List Nat} {gid : Nat → Nat → Nat → Nat} {c : Change}

theorem isMod_of {r d m hi : Nat} {prods : List Nat} (hw : ModifyWorld n E keepMods rank same P mds rep L gl gid c) (hr : r < n)
    (hp : (rank r).mods2prods d = some prods) (h : prods[m + 1]? = some hi) : IsMod (rank r).mods2prods (mds r) d m := by
  obtain ⟨_, _, h3, _⟩ := (hw.input r hr).exist d prods hp
  have := (List.getElem?_eq_some_iff.1 h).1
  exact ⟨by rw [hp]; rfl, by omega⟩

/-- Every new item is a copy of some new entity. -/
theorem newCopy_total (hw : ModifyWorld n E keepMods rank same P mds rep L gl gid c) {r : Nat} (hr : r < n) {l : NewNumbers}
    (hl : Renumbered ((rank r).mesh.nents E) (same r) (P r) (rank r).mods2prods l) {v : Nat} (hv : v < (same r).length + P r) :
    ∃ e, NewCopy (rank r) (gl r) (gid r) l v e := by
  have hmem : (v : Int) ∈ l.same2new ++ l.prods2new :=
    hl.all.mem_iff.2 (List.mem_map.2 ⟨v, List.mem_range.2 hv, rfl⟩)
  rcases List.mem_append.1 hmem with hm | hm
  · obtain ⟨i, hi⟩ := List.mem_iff_getElem?.1 hm
    have hil : i < (same r).length := by rw [← hl.sameLen]; exact (List.getElem?_eq_some_iff.1 hi).1
    have he := (hw.input r hr).sameLt _ (List.getElem_mem hil)
    rw [← hw.globalsLen r hr] at he
    exact ⟨.inl _, i, _, by rw [hl.sameEq]; exact List.getElem?_eq_getElem hil, List.getElem?_eq_getElem he, hi⟩
  · obtain ⟨p, hp⟩ := List.mem_iff_getElem?.1 hm
    have hpl : p < P r := by rw [← hl.prodsLen]; exact (List.getElem?_eq_some_iff.1 hp).1
    obtain ⟨d, m, prods, q1, lo, hi, q2, q3, q4, q5⟩ := (hw.input r hr).covered p hpl
    refine ⟨.inr ((d, gid r d m), p - lo), m, prods, lo, hi, q1, rfl, q2, q3, by omega, ?_⟩
    rw [show lo + (p - lo) = p by omega]; exact hp

/-- What is copied is new. -/
theorem newCopy_new (hw : ModifyWorld n E keepMods rank same P mds rep L gl gid c) {r : Nat} (hr : r < n) {l : NewNumbers}
    (hl : Renumbered ((rank r).mesh.nents E) (same r) (P r) (rank r).mods2prods l) {v : Nat} {e : Nat ⊕ ((Nat × Nat) × Nat)}
    (h : NewCopy (rank r) (gl r) (gid r) l v e) : c.New e := by
  cases e with
  | inl g =>
    obtain ⟨i, x, h1, h2, _⟩ := h
    rw [hl.sameEq] at h1
    exact ⟨hw.globalsLt r hr g (List.mem_of_getElem? h2), (hw.stays r x g hr h2).1 (List.mem_of_getElem? h1)⟩
  | inr e =>
    obtain ⟨⟨d, k⟩, j⟩ := e
    obtain ⟨m, prods, lo, hi, h1, h2, h3, h4, h5, _⟩ := h
    have hm := isMod_of hw hr h1 h4
    obtain ⟨m1, _, m3, _⟩ := hw.mods r d m hr hm
    have h2 : gid r d m = k := h2
    rw [h2] at m1 m3
    have := m3 prods lo hi h1 h3 h4
    exact ⟨m1, by show j < c.nprods (d, k); omega⟩

/-- Every new entity has a copy. -/
theorem newCopy_exists (hw : ModifyWorld n E keepMods rank same P mds rep L gl gid c) {l : Nat → NewNumbers}
    (hl : ∀ r, r < n → Renumbered ((rank r).mesh.nents E) (same r) (P r) (rank r).mods2prods (l r)) {e : Nat ⊕ ((Nat × Nat) × Nat)}
    (h : c.New e) : ∃ r v, r < n ∧ NewCopy (rank r) (gl r) (gid r) (l r) v e := by
  have hnat : ∀ r, r < n → ∀ x ∈ (l r).same2new ++ (l r).prods2new, ∃ v : Nat, x = (v : Int) := by
    intro r hr x hx
    obtain ⟨v, _, rfl⟩ := List.mem_map.1 ((hl r hr).all.mem_iff.1 hx)
    exact ⟨v, rfl⟩
  cases e with
  | inl g =>
    obtain ⟨r, i, o, h1, h2, _⟩ := hw.owned g h.1
    obtain ⟨k, hk⟩ := List.mem_iff_getElem?.1 ((hw.stays r i g h1 h2).2 h.2)
    have hk' : k < (l r).same2new.length := by
      rw [(hl r h1).sameLen]; exact (List.getElem?_eq_some_iff.1 hk).1
    obtain ⟨v, hv⟩ := hnat r h1 (l r).same2new[k] (by simp)
    exact ⟨r, v, h1, k, i, by rw [(hl r h1).sameEq]; exact hk, h2, by rw [List.getElem?_eq_getElem hk', hv]⟩
  | inr e =>
    obtain ⟨⟨d, k⟩, j⟩ := e
    obtain ⟨hx, hj⟩ := h
    obtain ⟨r, m, md, o, h1, h2, h3, _⟩ := hw.modOwned (d, k) hx
    have h2 : IsMod (rank r).mods2prods (mds r) d m := h2
    have h3 : gid r d m = k := h3
    obtain ⟨prods, e1, e2, e3⟩ := prodLo_spec (hw.input r h1) h2
    have hlen := prodLen_eq hw h1 h2
    rw [h3] at hlen
    have hj : j < c.nprods (d, k) := hj
    have hp := (hw.input r h1).bounded d m (prodLo (rank r).mods2prods (d, m) + j)
      ((producedBy_iff (hw.input r h1)).2 ⟨h2, by omega, by omega⟩)
    rw [← (hl r h1).prodsLen] at hp
    obtain ⟨v, hv⟩ := hnat r h1 (l r).prods2new[prodLo (rank r).mods2prods (d, m) + j] (by simp)
    exact ⟨r, v, h1, m, prods, _, _, e1, h3, e2, e3, by omega, by rw [List.getElem?_eq_getElem hp, hv]⟩

/-- `modify_globals` on one rank. -/
theorem newGlobalsOf_spec (hw : ModifyWorld n E keepMods rank same P mds rep L gl gid c) {r : Nat} (hr : r < n) {l : NewNumbers}
    (hl : Renumbered ((rank r).mesh.nents E) (same r) (P r) (rank r).mods2prods l) (s : Nat → Nat → Sched) (old : List Int)
    (hold : ∀ i g : Nat, (gl r)[i]? = some g → old[i]? = some ((c.below g : Nat) : Int)) :
    ∃ out, newGlobalsOf s E keepMods (rank r) l (fun d => if ((rank r).mods2prods d).isSome then
        some ((List.range (mds r d).length).map (rep r d)) else none) old = some out ∧ out.length = (same r).length + P r ∧
      ∀ v e, NewCopy (rank r) (gl r) (gid r) l v e → out[v]? = some ((c.num e : Nat) : Int) := by
  have h := hw.input r hr
  let N : Nat → Nat := fun i => match (gl r)[i]? with | some g => c.below g | none => 0
  have hN : ∀ i g : Nat, (gl r)[i]? = some g → N i = c.below g := by
    intro i g hi
    show (match (gl r)[i]? with | some g => c.below g | none => 0) = _
    rw [hi]
  have hper := perDim_spec ((rank r).mesh.dim + 1) (fun d => decide (E < d) && ((rank r).mods2prods d).isSome) (rank r).order
    (fun d => ((rank r).order d).getD []) (by
      -- the default is never used
      intro d _ hd
      simp only [Bool.and_eq_true, decide_eq_true_eq] at hd
      obtain ⟨o, ho⟩ := Option.isSome_iff_exists.1 (hw.orders r d hr hd.1 hd.2)
      rw [ho]; rfl) (by
      intro d hd
      simp only [Bool.and_eq_true, decide_eq_true_eq] at hd
      obtain ⟨prods, hp⟩ := Option.isSome_iff_exists.1 hd.2
      have := (h.exist d prods hp).1
      omega)
  obtain ⟨prods2new, a1, a2, a3⟩ := assign_general h (s 8) old
    (fun d => if ((rank r).mods2prods d).isSome then some ((List.range (mds r d).length).map (rep r d)) else none)
    (fun d => if (decide (E < d) && ((rank r).mods2prods d).isSome) = true then some (((rank r).order d).getD []) else none)
    N (fun x => c.place (x.1, gid r x.1 x.2)) rfl (by
      intro i hi
      rw [← hw.globalsLen r hr] at hi
      rw [hold i _ (List.getElem?_eq_getElem hi), hN i _ (List.getElem?_eq_getElem hi)]) (by
      intro d m hm
      obtain ⟨_, _, _, m4, m5⟩ := hw.mods r d m hr hm
      dsimp only
      rw [hm.1]
      by_cases hd : E < d
      · obtain ⟨ord, md, o1, o2, o3⟩ := m5 hd
        simp only [hd, decide_true, Bool.and_self, if_true, Option.isSome_some, true_and]
        refine ⟨(fun h => nomatch h), ?_⟩
        intro ord' md' e1 e2
        rw [o1] at e1
        obtain rfl : ord = ord' := Option.some.inj e1
        obtain rfl : md = md' := Option.some.inj (o2.symm.trans e2)
        exact o3
      · simp only [hd, decide_false, Bool.false_and, Bool.false_eq_true, if_false, Option.isSome_none, true_and]
        exact ⟨fun _ => m4 (by omega), fun ord md h => nomatch h⟩)
  obtain ⟨out, o1, o2, o3, o4⟩ := placeNew_spec hl (s 9) ((same r).map (fun i => ((N i : Nat) : Int))) prods2new
    (by rw [List.length_map]) a2
  refine ⟨out, ?_, o2, ?_⟩
  · unfold newGlobalsOf
    rw [if_pos (by rw [hl.sameEq, hl.sameLen]), hper, Option.bind_some, hl.sameEq, a1, Option.bind_some,
      if_pos (by rw [hl.nnew, hl.prodsLen])]
    exact o1
  · intro v e he
    cases e with
    | inl g =>
      obtain ⟨i, x, h1, h2, h3⟩ := he
      rw [hl.sameEq] at h1
      rw [o3 i v h3, List.getElem?_map, h1]
      show some ((N x : Nat) : Int) = _
      rw [hN x g h2]; rfl
    | inr e =>
      obtain ⟨⟨d, k⟩, j⟩ := e
      obtain ⟨m, prods, lo, hi, h1, h2, h3, h4, h5, h6⟩ := he
      have hm : IsMod (rank r).mods2prods (mds r) d m := isMod_of hw hr h1 h4
      obtain ⟨_, m2, _⟩ := hw.mods r d m hr hm
      obtain ⟨prods', e1, e2, _⟩ := prodLo_spec h hm
      have h1 : (rank r).mods2prods d = some prods := h1
      have h2 : gid r d m = k := h2
      obtain rfl : prods = prods' := Option.some.inj (h1.symm.trans e1)
      rw [h3] at e2
      have e2 := Option.some.inj e2
      rw [o4 _ v h6, a3 d m (lo + j) ⟨prods, h1, lo, hi, h3, h4, by omega, h5⟩]
      congr 2
      rw [h2] at m2
      show firstOf (same r) (rep r) N _ (d, m) + _ = c.below (c.rep (d, k)) + (if c.stays (c.rep (d, k)) then 1 else 0) + c.place (d, k) + j
      unfold firstOf
      dsimp only
      rw [hN _ _ m2, h2]
      have hst := hw.stays r _ _ hr m2
      have : (if rep r d m ∈ same r then 1 else 0) = (if c.stays (c.rep (d, k)) = true then 1 else 0) := by
        by_cases hs : c.stays (c.rep (d, k)) = true
        · rw [if_pos hs, if_pos (hst.2 hs)]
        · rw [if_neg hs, if_neg (fun hh => hs (hst.1 hh))]
      omega

theorem modifyGlobals_spec (hw : ModifyWorld n E keepMods rank same P mds rep L gl gid c) (hc : c.Ok) (hn : 0 < n) (hn' : n < 2 ^ 31)
    (hsz : c.N / n + 1 < 2 ^ 31) (hcnt : ∀ g, g < c.N → c.represented g + 1 < 2 ^ 31) (s : Nat → Nat → Nat → Sched)
    (l : Nat → NewNumbers) (hl : ∀ r, r < n → Renumbered ((rank r).mesh.nents E) (same r) (P r) (rank r).mods2prods (l r)) :
    ∃ globals, modifyGlobals s E keepMods (world n rank) (world n l) = some (world n globals) ∧
      ∀ r, r < n → (globals r).length = (same r).length + P r ∧
        ∀ v e, NewCopy (rank r) (gl r) (gid r) (l r) v e → (globals r)[v]? = some ((c.num e : Nat) : Int) := by
  obtain ⟨rc, r1, r2⟩ := onRanks_spec (n := n) rank
    (fun r m => ((world n l)[r]?).bind (fun l => globalRepCounts (s r) E m l.same))
    (fun r x => x.1 = (fun d => if ((rank r).mods2prods d).isSome then some ((List.range (mds r d).length).map (rep r d)) else none) ∧
      x.2.length = (rank r).mesh.nents E ∧ ∀ i, i < (rank r).mesh.nents E →
        x.2[i]? = some ((rankCount E rank same mds rep (r, i) : Nat) : Int)) (by
      intro r hr
      rw [world_get _ hr, Option.bind_some, (hl r hr).sameEq]
      obtain ⟨out, o1, o2, o3⟩ := globalRepCounts_spec (hw.input r hr) (s r) (hw.ownedLen r hr)
      exact ⟨_, o1, rfl, o2, o3⟩)
  obtain ⟨D, lin, linGl, old, d1, d2, d3, d4, d5, d6⟩ := old2new_spec hw hc hn hn' hsz hcnt (fun r => s r 10) (fun r => s r 11)
    (fun r => s r 13) (fun r => s r 12 0) (fun r => (rc r).2) (fun r hr => (r2 r hr).2.1) (fun r i hr hi => (r2 r hr).2.2 i hi)
  obtain ⟨out, o1, o2⟩ := onRanks_spec (n := n) rank
    (fun r m => ((world n l)[r]?).bind (fun l => ((world n rc)[r]?).bind (fun x => ((world n old)[r]?).bind (fun o =>
      newGlobalsOf (s r) E keepMods m l x.1 o))))
    (fun r x => x.length = (same r).length + P r ∧
        ∀ v e, NewCopy (rank r) (gl r) (gid r) (l r) v e → x[v]? = some ((c.num e : Nat) : Int)) (by
      intro r hr
      rw [world_get _ hr, Option.bind_some, world_get _ hr, Option.bind_some, world_get _ hr, Option.bind_some, (r2 r hr).1]
      exact newGlobalsOf_spec hw hr (hl r hr) (s r) (old r) (d6 r hr).2)
  refine ⟨out, ?_, o2⟩
  unfold modifyGlobals
  rw [r1, Option.bind_some, world_map, d1, Option.bind_some, world_map, d2, Option.bind_some, if_pos d3, d4, Option.bind_some, d5, Option.bind_some]
  exact o1

/-- `unmap_owners`, whatever the new indices of the old entities are. -/
theorem unmapOwners_general (s : Nat → Nat → Sched) {n : Nat} (hn : n ≤ 2147483648) {A : OldLevel} (hA : A.Ok n) {kept : Nat → List Nat}
    (hk : ∀ r, r < n → InRange (kept r) (A.nents r)) (m : Nat → List Int) (hm : ∀ r, r < n → (m r).length = A.nents r) (h1 : n ≠ 1) :
    ∃ ranks idxs, unmapOwners s (levelOf n A) (world n kept) (world n m) = some (some (world n ranks, world n idxs)) ∧
      ∀ r, r < n → (ranks r).length = (kept r).length ∧ (idxs r).length = (kept r).length ∧
        ∀ i e p x : Nat, (kept r)[i]? = some e → A.owner (r, e) = some (p, x) →
          (ranks r)[i]? = some (p : Int) ∧ (idxs r)[i]? = (m p)[x]? := by
  unfold unmapOwners
  rw [world_length, if_neg h1]
  let dests : Nat → Remotes := fun r => ⟨A.ownRanks r, A.ownIdxs r⟩
  have hD : DestsOk n dests A.nents := by
    refine ⟨hn, ?_, fun r hr => by show (A.ownIdxs r).length = (A.ownRanks r).length; rw [hA.ranksLen r hr, hA.idxsLen r hr],
      fun r hr i p x a b => (hA.ownerOk r i p x hr (destOf_eq.2 ⟨a, b⟩)).2⟩
    intro r hr p hp
    obtain ⟨i, hi⟩ := List.getElem?_of_mem hp
    have hil : i < (A.ownIdxs r).length := by
      rw [hA.idxsLen r hr, ← hA.ranksLen r hr]; exact (List.getElem?_eq_some_iff.1 hi).1
    exact (hA.ownerOk r i p _ hr (destOf_eq.2 ⟨hi, List.getElem?_eq_getElem hil⟩)).1
  obtain ⟨D, d1⟩ := C20_new s hD
  obtain ⟨D', order, fan, rfl, hC⟩ := copyDist_of hD d1
  obtain ⟨τ, t1, t2, t3⟩ := exch_back_one hC (fun r k => s r (k + 10)) m (fun r hr => hm r hr)
  obtain ⟨idxs, i1, i2⟩ := unmapRanks_spec (fun r => s r 20) 1 hk τ (fun r hr => by
    rw [t2 r hr, Nat.mul_one]; exact hA.ranksLen r hr)
  obtain ⟨ranks, r1, r2⟩ := unmapRanks_spec (fun r => s r 21) 1 hk (fun r => (A.ownRanks r).map (fun x : Nat => (x : Int)))
    (fun r hr => by rw [List.length_map, Nat.mul_one, hA.ranksLen r hr])
  have d1' : newDist s (levelOf n A).owners (levelOf n A).nents = some (world n D') := d1
  rw [d1', Option.bind_some, t1, Option.bind_some, i1, Option.bind_some]
  have hranks : (levelOf n A).owners.map (fun o => o.ranks.map (fun x : Nat => (x : Int))) =
      world n (fun r => (A.ownRanks r).map (fun x : Nat => (x : Int))) := by
    show (world n dests).map _ = _
    rw [world_map]
  rw [hranks, r1]
  refine ⟨ranks, idxs, rfl, ?_⟩
  intro r hr
  refine ⟨by rw [(r2 r hr).1, Nat.mul_one]; unfold keptPairs; rw [List.length_map],
    by rw [(i2 r hr).1, Nat.mul_one]; unfold keptPairs; rw [List.length_map], ?_⟩
  intro i e p x hi ho
  have hp : (keptPairs kept r)[i]? = some (r, e) := by unfold keptPairs; rw [List.getElem?_map, hi]; rfl
  have e1 := (r2 r hr).2 i r e hp 0 (by omega)
  have e2 := (i2 r hr).2 i r e hp 0 (by omega)
  rw [entry_one, entry_one] at e1 e2
  refine ⟨?_, by rw [e2, t3 r e p x hr ho]⟩
  rw [e1, List.getElem?_map, (destOf_eq.1 (show destOf dests r e = some (p, x) from ho)).1]
  rfl

theorem modifyOwners_spec (hw : ModifyWorld n E keepMods rank same P mds rep L gl gid c) (hn : n ≤ 2147483648) (h1 : n ≠ 1)
    (s : Nat → Nat → Nat → Sched) (l : Nat → NewNumbers)
    (hl : ∀ r, r < n → Renumbered ((rank r).mesh.nents E) (same r) (P r) (rank r).mods2prods (l r))
    (A : OldLevel) (hA : A.Ok n) (hne : ∀ r, r < n → A.nents r = (rank r).mesh.nents E)
    (hown : OwnersOk n (fun r i => (gl r)[i]?) (fun r => (A.ownRanks r).map (fun x : Nat => (x : Int)))
      (fun r => (A.ownIdxs r).map (fun x : Nat => (x : Int))))
    (hone : ∀ r r' d m m', r < n → r' < n → IsMod (rank r).mods2prods (mds r) d m → IsMod (rank r').mods2prods (mds r') d m' →
      gid r d m = gid r' d m' → r = r') :
    ∃ ranks idxs, modifyOwners s (levelOf n A) (world n l) = some (some (world n ranks, world n idxs)) ∧
      (∀ r, r < n → (ranks r).length = (same r).length + P r ∧ (idxs r).length = (same r).length + P r) ∧
      NewOwnersOk n rank gl gid l ranks idxs := by
  obtain ⟨sr, si, u1, u2⟩ := unmapOwners_general (fun r => s r 14) hn hA (kept := fun r => (l r).same) (by
      intro r hr i hi
      rw [(hl r hr).sameEq] at hi
      rw [hne r hr]
      exact (hw.input r hr).sameLt i hi) (fun r => (l r).old2new) (by
      intro r hr; rw [(hl r hr).oldLen, hne r hr]) h1
  obtain ⟨ranks, a1, a2⟩ := onRanks_spec (n := n) l (fun r l => ((world n sr)[r]?).bind (fun a =>
      placeNew (s r 15) l a (List.replicate l.prods2new.length (r : Int))))
    (fun r out => out.length = (same r).length + P r ∧
      (∀ i v : Nat, (l r).same2new[i]? = some (v : Int) → out[v]? = (sr r)[i]?) ∧
      ∀ p v : Nat, (l r).prods2new[p]? = some (v : Int) → out[v]? = some (r : Int)) (by
      intro r hr
      rw [world_get _ hr, Option.bind_some]
      obtain ⟨out, o1, o2, o3, o4⟩ := placeNew_spec (hl r hr) (s r 15) (sr r) (List.replicate (l r).prods2new.length (r : Int))
        (by rw [(u2 r hr).1, (hl r hr).sameEq]) (by rw [List.length_replicate, (hl r hr).prodsLen])
      refine ⟨out, o1, o2, o3, ?_⟩
      intro p v hp
      rw [o4 p v hp, List.getElem?_replicate, if_pos (List.getElem?_eq_some_iff.1 hp).1])
  obtain ⟨idxs, b1, b2⟩ := onRanks_spec (n := n) l (fun r l => ((world n si)[r]?).bind (fun a => placeNew (s r 16) l a l.prods2new))
    (fun r out => out.length = (same r).length + P r ∧
      (∀ i v : Nat, (l r).same2new[i]? = some (v : Int) → out[v]? = (si r)[i]?) ∧
      ∀ p v : Nat, (l r).prods2new[p]? = some (v : Int) → out[v]? = some (v : Int)) (by
      intro r hr
      rw [world_get _ hr, Option.bind_some]
      obtain ⟨out, o1, o2, o3, o4⟩ := placeNew_spec (hl r hr) (s r 16) (si r) (l r).prods2new
        (by rw [(u2 r hr).2.1, (hl r hr).sameEq]) (hl r hr).prodsLen
      exact ⟨out, o1, o2, o3, fun p v hp => by rw [o4 p v hp, hp]⟩)
  refine ⟨ranks, idxs, ?_, fun r hr => ⟨(a2 r hr).1, (b2 r hr).1⟩, ?_⟩
  · unfold modifyOwners
    rw [world_map, world_map, u1, Option.bind_some]
    dsimp only
    rw [a1, Option.bind_some, b1]
    rfl
  · intro e r v hr he
    cases e with
    | inl g =>
      obtain ⟨i, x, h2, h3, h4⟩ := he
      obtain ⟨q, k, q1, q2, q3⟩ := hown g r x hr h3
      -- the owner stays too
      have hst : c.stays g = true := (hw.stays r x g hr h3).1 (by rw [← (hl r hr).sameEq]; exact List.mem_of_getElem? h2)
      obtain ⟨ko, hko⟩ := List.mem_iff_getElem?.1 ((hw.stays q k g q1 q2).2 hst)
      have hko' : ko < (l q).same2new.length := by
        rw [(hl q q1).sameLen]; exact (List.getElem?_eq_some_iff.1 hko).1
      obtain ⟨w, _, hwv⟩ := List.mem_map.1 ((hl q q1).all.mem_iff.1 (List.mem_append_left _ (List.getElem_mem hko')))
      have hw' : (l q).same2new[ko]? = some (w : Int) := by rw [List.getElem?_eq_getElem hko', hwv]
      have hold : (l q).old2new[k]? = some (w : Int) := by rw [(hl q q1).oldSame ko k hko, hw']
      refine ⟨q, w, q1, ⟨ko, k, by rw [(hl q q1).sameEq]; exact hko, q2, hw'⟩, ?_⟩
      rintro r' v' hr' ⟨i', x', f1, f2, f3⟩
      obtain ⟨g1, g2⟩ := q3 r' x' hr' f2
      rw [List.getElem?_map] at g1 g2
      obtain ⟨q', g1', e1⟩ := Option.map_eq_some_iff.1 g1
      obtain ⟨k', g2', e2⟩ := Option.map_eq_some_iff.1 g2
      obtain rfl : q' = q := by omega
      obtain rfl : k' = k := by omega
      have ho : A.owner (r', x') = some (q', k') := by
        show ((A.ownRanks r')[x']?).bind (fun p => ((A.ownIdxs r')[x']?).map (fun x => (p, x))) = _
        rw [g1', g2']; rfl
      obtain ⟨z1, z2⟩ := (u2 r' hr').2.2 i' x' q' k' f1 ho
      exact ⟨by rw [(a2 r' hr').2.1 i' v' f3, z1], by rw [(b2 r' hr').2.1 i' v' f3, z2, hold]⟩
    | inr e =>
      obtain ⟨⟨d, k⟩, j⟩ := e
      refine ⟨r, v, hr, he, ?_⟩
      obtain ⟨m, prods, lo, hi, h2, h3, h4, h5, h6, h7⟩ := he
      rintro r' v' hr' ⟨m', prods', lo', hi', f2, f3, f4, f5, f6, f7⟩
      have hm := isMod_of hw hr h2 h5
      have hm' := isMod_of hw hr' f2 f5
      have h3 : gid r d m = k := h3
      have f3 : gid r' d m' = k := f3
      obtain rfl := hone r r' d m m' hr hr' hm hm' (by rw [h3, f3])
      obtain rfl := hw.modsDistinct r d m m' hr hm hm' (by rw [h3, f3])
      obtain rfl : prods = prods' := Option.some.inj (h2.symm.trans f2)
      obtain rfl : lo = lo' := Option.some.inj (h4.symm.trans f4)
      rw [h7] at f7
      obtain rfl : v = v' := by have := Option.some.inj f7; omega
      exact ⟨(a2 r hr).2.2 _ v h7, (b2 r hr).2.2 _ v h7⟩

/-- The new global numbers. On any number of ranks, however the old entities are distributed and copied, and under
every schedule: every rank gets a number for each of its new entities; each of these is a copy of exactly one
new entity of the whole mesh; its number is `c.num` of that entity, which depends on the change
only; the numbers given out are exactly `0 .. c.below c.N - 1`, and two
copies, wherever they are, have the same number exactly if they are copies of the same entity. -/
theorem C65_globals (hw : ModifyWorld n E keepMods rank same P mds rep L gl gid c) (hc : c.Ok) (hn : 0 < n) (hn' : n < 2 ^ 31)
    (hsz : c.N / n + 1 < 2 ^ 31) (hcnt : ∀ g, g < c.N → c.represented g + 1 < 2 ^ 31) (s : Nat → Nat → Nat → Sched)
    (hsame : ∀ r, r < n → collectSame (s r 0 0) (s r 0 1) ((rank r).mesh.nents E) ((rank r).mdsAreMods E) keepMods = some (same r)) :
    ∃ (l : Nat → NewNumbers) (globals : Nat → List Int),
      onRanks (world n rank) (fun r m => modifyNumbers (s r) m.mesh E m.mods2mds m.mdsAreMods m.mods2prods keepMods) = some (world n l) ∧
      (∀ r, r < n → Renumbered ((rank r).mesh.nents E) (same r) (P r) (rank r).mods2prods (l r)) ∧
      modifyGlobals s E keepMods (world n rank) (world n l) = some (world n globals) ∧
      (∀ r, r < n → (globals r).length = (same r).length + P r) ∧
      (∀ r v, r < n → v < (same r).length + P r → ∃ e, c.New e ∧ NewCopy (rank r) (gl r) (gid r) (l r) v e ∧
        (globals r)[v]? = some ((c.num e : Nat) : Int) ∧ ∀ e', NewCopy (rank r) (gl r) (gid r) (l r) v e' → e' = e) ∧
      (∀ x : Nat, (∃ r v : Nat, r < n ∧ (globals r)[v]? = some (x : Int)) ↔ x < c.below c.N) ∧
      ∀ r v e r' v' e', r < n → r' < n → NewCopy (rank r) (gl r) (gid r) (l r) v e → NewCopy (rank r') (gl r') (gid r') (l r') v' e' →
        ((globals r)[v]? = (globals r')[v']? ↔ e = e') := by
  obtain ⟨l, l1, l2⟩ := onRanks_spec (n := n) rank
    (fun r m => modifyNumbers (s r) m.mesh E m.mods2mds m.mdsAreMods m.mods2prods keepMods)
    (fun r x => Renumbered ((rank r).mesh.nents E) (same r) (P r) (rank r).mods2prods x) (by
      intro r hr
      obtain ⟨out, o1, o2, _⟩ := C39_numbering (s r) (rank r).mesh E _ _ _ keepMods _ _ _ _ _ (hw.input r hr) (hsame r hr)
      exact ⟨out, o1, o2⟩)
  obtain ⟨globals, g1, g2⟩ := modifyGlobals_spec hw hc hn hn' hsz hcnt s l l2
  have hinj : ∀ r v e r' v' e', r < n → r' < n → NewCopy (rank r) (gl r) (gid r) (l r) v e → NewCopy (rank r') (gl r') (gid r') (l r') v' e' →
        ((globals r)[v]? = (globals r')[v']? ↔ e = e') := by
    intro r v e r' v' e' hr hr' he he'
    rw [(g2 r hr).2 v e he, (g2 r' hr').2 v' e' he']
    constructor
    · intro h
      refine num_injective hc (newCopy_new hw hr (l2 r hr) he) (newCopy_new hw hr' (l2 r' hr') he') ?_
      have := Option.some.inj h
      omega
    · rintro rfl; rfl
  refine ⟨l, globals, l1, l2, g1, fun r hr => (g2 r hr).1, ?_, ?_, hinj⟩
  · intro r v hr hv
    obtain ⟨e, he⟩ := newCopy_total hw hr (l2 r hr) hv
    exact ⟨e, newCopy_new hw hr (l2 r hr) he, he, (g2 r hr).2 v e he, fun e' he' => (hinj r v e' r v e hr hr he' he).1 rfl⟩
  · intro x
    constructor
    · rintro ⟨r, v, hr, hx⟩
      have hv := (List.getElem?_eq_some_iff.1 hx).1
      rw [(g2 r hr).1] at hv
      obtain ⟨e, he⟩ := newCopy_total hw hr (l2 r hr) hv
      rw [(g2 r hr).2 v e he] at hx
      have := Option.some.inj hx
      have := num_lt hc (newCopy_new hw hr (l2 r hr) he)
      omega
    · intro hx
      obtain ⟨e, e1, e2⟩ := num_onto hc c.N (Nat.le_refl _) x hx
      obtain ⟨r, v, hr, he⟩ := newCopy_exists hw l2 e1
      exact ⟨r, v, hr, by rw [(g2 r hr).2 v e he, e2]⟩

/-- Two distributions of the same mesh, possibly on different numbers of ranks, to which the same change is made,
give copies of the same new entity the same global number. -/
theorem C65_same_on_any_ranks {n₁ n₂ : Nat} {rank₁ rank₂ : Nat → ModifyRank} {same₁ same₂ : Nat → List Nat} {P₁ P₂ : Nat → Nat}
    {mds₁ mds₂ : Nat → Nat → List Nat} {rep₁ rep₂ : Nat → Nat → Nat → Nat} {L₁ L₂ : Nat → Nat → Nat → List (Nat × Int)}
    {gl₁ gl₂ : Nat → List Nat} {gid₁ gid₂ : Nat → Nat → Nat → Nat}
    (h₁ : ModifyWorld n₁ E keepMods rank₁ same₁ P₁ mds₁ rep₁ L₁ gl₁ gid₁ c)
    (h₂ : ModifyWorld n₂ E keepMods rank₂ same₂ P₂ mds₂ rep₂ L₂ gl₂ gid₂ c) (hc : c.Ok)
    (hn₁ : 0 < n₁ ∧ n₁ < 2 ^ 31 ∧ c.N / n₁ + 1 < 2 ^ 31) (hn₂ : 0 < n₂ ∧ n₂ < 2 ^ 31 ∧ c.N / n₂ + 1 < 2 ^ 31)
    (hcnt : ∀ g, g < c.N → c.represented g + 1 < 2 ^ 31) (s₁ s₂ : Nat → Nat → Nat → Sched) (l₁ l₂ : Nat → NewNumbers)
    (hl₁ : ∀ r, r < n₁ → Renumbered ((rank₁ r).mesh.nents E) (same₁ r) (P₁ r) (rank₁ r).mods2prods (l₁ r))
    (hl₂ : ∀ r, r < n₂ → Renumbered ((rank₂ r).mesh.nents E) (same₂ r) (P₂ r) (rank₂ r).mods2prods (l₂ r)) :
    ∃ g₁ g₂, modifyGlobals s₁ E keepMods (world n₁ rank₁) (world n₁ l₁) = some (world n₁ g₁) ∧
      modifyGlobals s₂ E keepMods (world n₂ rank₂) (world n₂ l₂) = some (world n₂ g₂) ∧
      ∀ e r v r' v', r < n₁ → r' < n₂ → NewCopy (rank₁ r) (gl₁ r) (gid₁ r) (l₁ r) v e →
        NewCopy (rank₂ r') (gl₂ r') (gid₂ r') (l₂ r') v' e → ∃ x : Nat, (g₁ r)[v]? = some (x : Int) ∧ (g₂ r')[v']? = some (x : Int) := by
  obtain ⟨g₁, a1, a2⟩ := modifyGlobals_spec h₁ hc hn₁.1 hn₁.2.1 hn₁.2.2 hcnt s₁ l₁ hl₁
  obtain ⟨g₂, b1, b2⟩ := modifyGlobals_spec h₂ hc hn₂.1 hn₂.2.1 hn₂.2.2 hcnt s₂ l₂ hl₂
  exact ⟨g₁, g₂, a1, b1, fun e r v r' v' hr hr' he he' => ⟨c.num e, (a2 r hr).2 v e he, (b2 r' hr').2 v' e he'⟩⟩

/-- What stays keeps its order, and the products of a modified entity come right behind what its representative
keeps, in front of everything from later old entities. -/
theorem C65_order (hc : c.Ok) {e e' : Nat ⊕ ((Nat × Nat) × Nat)} (he : c.New e) (he' : c.New e')
    (hlt : c.source e < c.source e') :
    c.num e < c.num e' := by
  obtain ⟨_, _, a3⟩ := num_between hc he
  obtain ⟨_, b2, _⟩ := num_between hc he'
  have := below_mono c (show c.source e + 1 ≤ c.source e' from hlt)
  omega

/-- Numbers and owners together. Where modified entities exist on one rank only, the whole step succeeds on more than one rank, the copies of a
new entity agree on one owner, and that owner is one of them. -/
theorem C65_owners (hw : ModifyWorld n E keepMods rank same P mds rep L gl gid c) (hc : c.Ok) (hn : 1 < n) (hn' : n < 2 ^ 31)
    (hsz : c.N / n + 1 < 2 ^ 31) (hcnt : ∀ g, g < c.N → c.represented g + 1 < 2 ^ 31) (s : Nat → Nat → Nat → Sched)
    (hsame : ∀ r, r < n → collectSame (s r 0 0) (s r 0 1) ((rank r).mesh.nents E) ((rank r).mdsAreMods E) keepMods = some (same r))
    (A : OldLevel) (hA : A.Ok n) (hne : ∀ r, r < n → A.nents r = (rank r).mesh.nents E)
    (hown : OwnersOk n (fun r i => (gl r)[i]?) (fun r => (A.ownRanks r).map (fun x : Nat => (x : Int)))
      (fun r => (A.ownIdxs r).map (fun x : Nat => (x : Int))))
    (hone : ∀ r r' d m m', r < n → r' < n → IsMod (rank r).mods2prods (mds r) d m → IsMod (rank r').mods2prods (mds r') d m' →
      gid r d m = gid r' d m' → r = r') :
    ∃ (l : Nat → NewNumbers) (ranks idxs globals : Nat → List Int),
      modifyEnts s E keepMods (world n rank) (levelOf n A) =
        some ⟨world n l, some (world n ranks, world n idxs), world n globals⟩ ∧
      (∀ r, r < n → Renumbered ((rank r).mesh.nents E) (same r) (P r) (rank r).mods2prods (l r)) ∧
      (∀ r, r < n → (ranks r).length = (same r).length + P r ∧ (idxs r).length = (same r).length + P r ∧
        (globals r).length = (same r).length + P r) ∧
      NewOwnersOk n rank gl gid l ranks idxs ∧
      ∀ r v e, r < n → NewCopy (rank r) (gl r) (gid r) (l r) v e → (globals r)[v]? = some ((c.num e : Nat) : Int) := by
  obtain ⟨l, _, l1, l2, _⟩ := C65_globals hw hc (by omega) hn' hsz hcnt s hsame
  obtain ⟨globals, g1, g2⟩ := modifyGlobals_spec hw hc (by omega) hn' hsz hcnt s l l2
  obtain ⟨ranks, idxs, o1, o2, o3⟩ := modifyOwners_spec hw (by omega) (by omega) s l l2 A hA hne hown hone
  refine ⟨l, ranks, idxs, globals, ?_, l2, fun r hr => ⟨(o2 r hr).1, (o2 r hr).2, (g2 r hr).1⟩, o3, fun r v e hr he => (g2 r hr).2 v e he⟩
  unfold modifyEnts
  rw [l1, Option.bind_some, o1, Option.bind_some, g1]
  rfl

/-- The ranks that the elements of one rank get. -/
theorem keyElemRanks_spec (s : Sched) {keys : List Nat} {kds2elems : Graph} {kdRanks elemRanks : List Nat}
    (h : CavityInput keys kds2elems kdRanks elemRanks.length) (F : Nat → Nat)
    (hin : ∀ e q, InCavity keys kds2elems kdRanks e q → F e = q)
    (hout : ∀ e q : Nat, elemRanks[e]? = some q → (∀ q', ¬ InCavity keys kds2elems kdRanks e q') → F e = q) :
    ∃ out, keyElemRanks s keys kds2elems kdRanks elemRanks = some out ∧ out.length = elemRanks.length ∧
      ∀ e, e < elemRanks.length → out[e]? = some ((F e : Nat) : Int) := by
  have hex : ∀ key, ∃ ws : List (Nat × Int), key < keys.length → ((keys[key]?).bind (fun kd => (kdRanks[kd]?).bind (fun q =>
      (fanMembers kds2elems.a2ab kd).bind (fun fan =>
      fan.mapM (fun i => (kds2elems.ab2b[i]?).map (fun e => (e, (q : Int)))))))) = some ws ∧
      ∀ e v, (e, v) ∈ ws ↔ ∃ kd q i : Nat, keys[key]? = some kd ∧ kdRanks[kd]? = some q ∧ InFan kds2elems.a2ab kd i ∧
        kds2elems.ab2b[i]? = some e ∧ v = (q : Int) := by
    intro key
    by_cases hk : key < keys.length
    · obtain ⟨kd0, hkey⟩ : ∃ kd, keys[key]? = some kd := ⟨_, List.getElem?_eq_getElem hk⟩
      have hmem := List.mem_of_getElem? hkey
      obtain ⟨q0, hq⟩ : ∃ q, kdRanks[kd0]? = some q := ⟨_, List.getElem?_eq_getElem (h.owner _ hmem)⟩
      obtain ⟨lo0, hlo⟩ : ∃ x, kds2elems.a2ab[kd0]? = some x :=
        ⟨_, List.getElem?_eq_getElem (show kd0 < kds2elems.a2ab.length from by have := h.fan _ hmem; omega)⟩
      obtain ⟨hi0, hhi⟩ : ∃ x, kds2elems.a2ab[kd0 + 1]? = some x := ⟨_, List.getElem?_eq_getElem (h.fan _ hmem)⟩
      have hfm : fanMembers kds2elems.a2ab kd0 = some (List.range' lo0 (hi0 - lo0)) := by
        unfold fanMembers
        rw [hlo, hhi]
      have hfan : ∀ i, i ∈ List.range' lo0 (hi0 - lo0) ↔ InFan kds2elems.a2ab kd0 i := by
        intro i
        rw [List.mem_range'_1]
        constructor
        · rintro ⟨a, b⟩
          exact ⟨_, _, hlo, hhi, a, by omega⟩
        · rintro ⟨lo, hi, a, b, c, d⟩
          rw [hlo] at a
          rw [hhi] at b
          have := Option.some.inj a
          have := Option.some.inj b
          omega
      obtain ⟨ws, w1, _, w3, _⟩ := mapM_list_spec (List.range' lo0 (hi0 - lo0))
        (fun i => (kds2elems.ab2b[i]?).map (fun e => (e, (q0 : Int)))) (by
          intro i hi
          obtain ⟨e, e1, _⟩ := h.elem _ hmem i ((hfan i).1 hi)
          rw [e1]; rfl)
      refine ⟨ws, fun _ => ⟨?_, ?_⟩⟩
      · rw [hkey, Option.bind_some, hq, Option.bind_some, hfm, Option.bind_some]
        exact w1
      · intro e v
        rw [w3]
        constructor
        · rintro ⟨i, hi, he⟩
          obtain ⟨e', e1, e2⟩ := Option.map_eq_some_iff.1 he
          obtain ⟨rfl, rfl⟩ := Prod.mk.inj e2
          exact ⟨_, _, i, hkey, hq, (hfan i).1 hi, e1, rfl⟩
        · rintro ⟨kd, q, i, a1, a2, a3, a4, rfl⟩
          rw [hkey] at a1
          obtain rfl := Option.some.inj a1
          rw [hq] at a2
          obtain rfl := Option.some.inj a2
          exact ⟨i, (hfan i).2 a3, by rw [a4]; rfl⟩
    · exact ⟨[], fun h => absurd h hk⟩
  obtain ⟨ws, hws⟩ := Classical.axiomOfChoice hex
  have hlen : (Mem.ofList (elemRanks.map (fun q : Nat => (q : Int)))).length = elemRanks.length := by
    unfold Mem.ofList; rw [List.length_map, List.length_map]
  obtain ⟨m, m1, m2, m3, m4⟩ := parScatter_spec s keys.length _ ws (fun e => ((F e : Nat) : Int))
    (Mem.ofList (elemRanks.map (fun q : Nat => (q : Int)))) (fun i hi => (hws i hi).1) (by
      intro key hk e v hv
      obtain ⟨kd, q, i, a1, a2, a3, a4, rfl⟩ := ((hws key hk).2 e v).1 hv
      obtain ⟨e', e1, e2⟩ := h.elem kd (List.mem_of_getElem? a1) i a3
      rw [a4] at e1
      obtain rfl := Option.some.inj e1
      refine ⟨by omega, ?_⟩
      rw [hin e q ⟨kd, i, List.mem_of_getElem? a1, a2, a3, a4⟩])
  obtain ⟨out, o1, o2, o3⟩ := Mem.toArray?_spec m (fun e => some ((F e : Nat) : Int)) (by
    intro e he
    refine ⟨?_, rfl⟩
    by_cases hc : ∃ key v, key < keys.length ∧ (e, v) ∈ ws key
    · obtain ⟨key, v, hk, hv⟩ := hc
      exact m3 key hk e v hv
    · rw [m4 e (fun key hk v hv => hc ⟨key, v, hk, hv⟩)]
      have hel : e < elemRanks.length := by omega
      unfold Mem.ofList
      rw [List.getElem?_map, List.getElem?_map, List.getElem?_eq_getElem hel]
      show some (some ((elemRanks[e] : Nat) : Int)) = _
      rw [hout e _ (List.getElem?_eq_getElem hel)]
      rintro q' ⟨kd, i, a1, a2, a3, a4⟩
      obtain ⟨key, hkey⟩ := List.mem_iff_getElem?.1 a1
      have hk := (List.getElem?_eq_some_iff.1 hkey).1
      exact hc ⟨key, _, hk, ((hws key hk).2 e _).2 ⟨kd, q', i, hkey, a2, a3, a4, rfl⟩⟩)
  refine ⟨out, ?_, by omega, fun e he => o3 e (by omega)⟩
  unfold keyElemRanks
  rw [m1, Option.bind_some]
  exact o1

/-- Elements move to the rank that owns the key whose cavity they are in. If every rank that has a copy of an element
sees the key around which it is (`want`), and the owner of that key has a copy, then all copies of an element agree on an owner that
is one of them; it is on the rank of the owner of the key, and elements in no cavity keep the rank that owned them. -/
theorem C65_cavity_owners (s : Nat → Nat → Sched) {n : Nat} {elemOwners kdOwners : Nat → Remotes} {keys : Nat → List Nat}
    {kds2elems : Nat → Graph} (hE : DestsOk n elemOwners (fun r => (elemOwners r).ranks.length))
    (hin : ∀ r, r < n → CavityInput (keys r) (kds2elems r) (kdOwners r).ranks (elemOwners r).ranks.length)
    (hself : ∀ r i q k : Nat, r < n → destOf elemOwners r i = some (q, k) → destOf elemOwners q k = some (q, k))
    (want : Nat × Nat → Option Nat)
    (hwant : ∀ r i e q, r < n → destOf elemOwners r i = some e →
      (want e = some q ↔ InCavity (keys r) (kds2elems r) (kdOwners r).ranks i q))
    (hhas : ∀ r i e q, r < n → destOf elemOwners r i = some e → want e = some q → q < n ∧ ∃ k, destOf elemOwners q k = some e) :
    ∃ ranks idxs : Nat → List Int,
      setOwnersByIndset s (world n keys) (world n kds2elems) (world n kdOwners) (world n elemOwners) = some (world n ranks, world n idxs) ∧
      OwnersOk n (destOf elemOwners) ranks idxs ∧
      ∀ r i e, r < n → destOf elemOwners r i = some e → (ranks r)[i]? = some (((want e).getD e.1 : Nat) : Int) := by
  obtain ⟨D, hD⟩ := C20_new s hE
  have hdest : ∀ r i, r < n → i < (elemOwners r).ranks.length → ∃ e, destOf elemOwners r i = some e := by
    intro r i hr hi
    have hi' : i < (elemOwners r).idxs.length := by rw [hE.len r hr]; exact hi
    exact ⟨_, destOf_eq.2 ⟨List.getElem?_eq_getElem hi, List.getElem?_eq_getElem hi'⟩⟩
  obtain ⟨ranks, r1, r2⟩ := onRanks_spec (n := n) keys (fun r k => ((world n kds2elems)[r]?).bind (fun g =>
      ((world n kdOwners)[r]?).bind (fun ko => ((world n elemOwners)[r]?).bind (fun eo => keyElemRanks (s r 20) k g ko.ranks eo.ranks))))
    (fun r out => out.length = (elemOwners r).ranks.length ∧
      ∀ i e, destOf elemOwners r i = some e → out[i]? = some (((want e).getD e.1 : Nat) : Int)) (by
      intro r hr
      rw [world_get _ hr, Option.bind_some, world_get _ hr, Option.bind_some, world_get _ hr, Option.bind_some]
      obtain ⟨out, o1, o2, o3⟩ := keyElemRanks_spec (s r 20) (hin r hr)
        (fun i => match destOf elemOwners r i with | some e => (want e).getD e.1 | none => 0) (by
          rintro i q ⟨kd, j, a1, a2, a3, a4⟩
          obtain ⟨i', e1, e2⟩ := (hin r hr).elem kd a1 j a3
          rw [a4] at e1
          obtain rfl := Option.some.inj e1
          obtain ⟨e, he⟩ := hdest r i hr e2
          have := (hwant r i e q hr he).2 ⟨kd, j, a1, a2, a3, a4⟩
          simp only [he, this, Option.getD_some]) (by
          intro i q hq hno
          obtain ⟨⟨p, x⟩, he⟩ := hdest r i hr (List.getElem?_eq_some_iff.1 hq).1
          have hnone : want (p, x) = none := by
            cases hw : want (p, x) with
            | none => rfl
            | some q' => exact absurd ((hwant r i _ q' hr he).1 hw) (hno q')
          simp only [he, hnone, Option.getD_none]
          have := (destOf_eq.1 he).1
          rw [hq] at this
          exact (Option.some.inj this).symm)
      refine ⟨out, o1, o2, ?_⟩
      intro i e he
      have := o3 i (List.getElem?_eq_some_iff.1 (destOf_eq.1 he).1).1
      rw [this]
      simp only [he])
  obtain ⟨idxs, i1, _, i3, _⟩ := C21_update_suggested hE hD (fun r k => s r (k + 21)) ranks (fun r hr => (r2 r hr).1) (by
    intro e r i r' i' hr hr' he he'
    rw [(r2 r hr).2 i e he, (r2 r' hr').2 i' e he'])
  refine ⟨ranks, idxs, ?_, ?_, fun r i e hr he => (r2 r hr).2 i e he⟩
  · unfold setOwnersByIndset
    rw [world_map, hD, Option.bind_some, r1, Option.bind_some]
    exact i1
  · intro e r i hr he
    refine i3 e ?_
    cases hw : want e with
    | some q =>
      obtain ⟨hq, k, hk⟩ := hhas r i e q hr he hw
      exact ⟨q, k, hq, hk, by rw [(r2 q hq).2 k e hk, hw]; rfl⟩
    | none =>
      obtain ⟨q, k⟩ := e
      have hk := hself r i q k hr he
      have hq : q < n := hE.rank r hr q (List.mem_of_getElem? (destOf_eq.1 he).1)
      exact ⟨q, k, hq, hk, by rw [(r2 q hq).2 k _ hk, hw]; rfl⟩

end

/-! ### A concrete case: two edges on two ranks

Rank 0 has vertices 0 and 1 and edge 0, rank 1 has vertices 1 and 2 and edge 1; both edges begin at vertex 1, which rank 0 owns. A vertex is put in the middle
of each edge. -/

/-- Vertices and edges of one rank. -/
def splitLineMesh (r : Nat) : ModifyMesh where
  dim := 1
  nents := fun d => if d = 0 then 2 else 1
  up := fun _ _ => ⟨[0, 1, 2], [0, 0], some (if r = 0 then [8, 0] else [0, 8])⟩
  down := fun _ _ => if r = 0 then [1, 0] else [0, 1]
  degree := fun _ _ => 2
  owned := fun d => if d = 0 then (if r = 0 then [1, 1] else [0, 1]) else [1]

/-- What one rank hands over. -/
def splitLineRank (r : Nat) : ModifyRank where
  mesh := splitLineMesh r
  mods2mds := fun d => if d = 1 then some [0] else none
  mdsAreMods := fun d => if d = 1 then some [1] else none
  mods2prods := fun d => if d = 1 then some [0, 1] else none
  globals := if r = 0 then [0, 1] else [1, 2]
  order := fun d => if d = 1 then some [(r : Int)] else none

/-- The change: three vertices stay, edges 0 and 1 get one product each, both represented by vertex 1. -/
def lineChange : Change where
  N := 3
  stays := fun _ => true
  mods := [(1, 0), (1, 1)]
  rep := fun _ => 1
  nprods := fun _ => 1
  place := fun x => x.2

theorem lineMod {r d m : Nat} (h : IsMod (splitLineRank r).mods2prods (fun d => if d = 1 then [0] else []) d m) : d = 1 ∧ m = 0 := by
  obtain ⟨h1, h2⟩ := h
  by_cases hd : d = 1
  · subst hd
    simp at h2
    exact ⟨rfl, h2⟩
  · simp [splitLineRank, hd] at h1

theorem lineFan {m p : Nat} : InFan [0, 1] m p ↔ m = 0 ∧ p = 0 := by
  constructor
  · rintro ⟨lo, hi, h1, h2, h3, h4⟩
    match m with
    | 0 => simp at h1 h2; omega
    | 1 => simp at h2
    | m + 2 => simp at h2
  · rintro ⟨rfl, rfl⟩
    exact ⟨0, 1, rfl, rfl, by omega, by omega⟩

theorem lineProduced {r d m p : Nat} : ProducedBy (splitLineRank r).mods2prods d m p ↔ d = 1 ∧ m = 0 ∧ p = 0 := by
  constructor
  · rintro ⟨prods, h1, h2⟩
    by_cases hd : d = 1
    · subst hd
      obtain rfl : [0, 1] = prods := Option.some.inj h1
      exact ⟨rfl, lineFan.1 h2⟩
    · simp [splitLineRank, hd] at h1
  · rintro ⟨rfl, rfl, rfl⟩
    exact ⟨[0, 1], rfl, lineFan.2 ⟨rfl, rfl⟩⟩

theorem lineInput (r : Nat) : ModifyInput (splitLineRank r).mesh 0 (splitLineRank r).mods2mds (splitLineRank r).mods2prods false [0, 1] 1
    (fun d => if d = 1 then [0] else []) (fun _ _ => if r = 0 then 1 else 0)
    (fun _ v => [(0, if (v = 1) = (r = 0) then 0 else 8)]) := by
  have hr : r = 0 ∨ r ≠ 0 := by omega
  refine ⟨by simp [splitLineRank, splitLineMesh], ?_, by decide, by simp [splitLineRank, splitLineMesh], ?_, ?_, ?_, ?_, ?_, ?_, ?_, ?_, ?_, ?_, ?_, ?_⟩
  · rcases hr with rfl | hr
    · rfl
    · simp [splitLineRank, splitLineMesh, hr]
  · intro d prods hp
    by_cases hd : d = 1
    · subst hd
      obtain rfl : [0, 1] = prods := Option.some.inj hp
      refine ⟨by simp [splitLineRank, splitLineMesh], rfl, rfl, by decide, by simp [splitLineRank, splitLineMesh], ?_⟩
      intro i lo hi h1 h2
      match i with
      | 0 => simp at h1 h2; omega
      | 1 => simp at h2
      | i + 2 => simp at h2
    · simp [splitLineRank, hd] at hp
  · rfl
  · intro p hp
    exact ⟨1, 0, lineProduced.2 ⟨rfl, rfl, by omega⟩⟩
  · intro d m p h
    obtain ⟨_, _, rfl⟩ := lineProduced.1 h
    omega
  · intro d m d' m' p h h'
    obtain ⟨rfl, rfl, _⟩ := lineProduced.1 h
    obtain ⟨rfl, rfl, _⟩ := lineProduced.1 h'
    exact ⟨rfl, rfl⟩
  · intro d m _
    show (if r = 0 then 1 else 0) < 2
    split <;> omega
  · intro m hm
    obtain ⟨h, _⟩ := lineMod hm
    omega
  · intro d m md hd
    omega
  · intro d m md hd hm hmd
    obtain ⟨rfl, rfl⟩ := lineMod hm
    obtain rfl : 0 = md := Option.some.inj hmd
    rcases hr with rfl | hr
    · rfl
    · simp [splitLineRank, splitLineMesh, hr]
  · intro d v hd hs hv
    have hd1 : d = 1 := by
      by_cases hd1 : d = 1
      · exact hd1
      · simp [splitLineRank, hd1] at hs
    subst hd1
    have hv : v < 2 := hv
    refine ⟨?_, ?_, ?_, ?_, ?_⟩
    · rcases hr with rfl | hr <;> (have : v = 0 ∨ v = 1 := by omega) <;> rcases this with rfl | rfl <;>
        simp [AdjRow, splitLineRank, splitLineMesh, *]
      all_goals
        intro j a b h
        cases j with
        | zero => simp at h; obtain ⟨rfl, rfl⟩ := h; simp
        | succ j => simp at h
    · simp [splitLineRank, splitLineMesh]
    · exact (List.nodup_singleton _).filter _
    · intro x hx y hy _ _ _
      rw [List.mem_singleton] at hx hy
      rw [hx, hy]
    · intro m md hmd
      obtain ⟨rfl, rfl⟩ : m = 0 ∧ 0 = md := by
        match m with
        | 0 => exact ⟨rfl, Option.some.inj hmd⟩
        | m + 1 => simp at hmd
      rcases hr with rfl | hr <;> (have : v = 0 ∨ v = 1 := by omega) <;> rcases this with rfl | rfl <;>
        simp [codeWhichDown, *]
  · intro d m d' m' hd
    omega
  · intro d m hm
    obtain ⟨rfl, rfl⟩ := lineMod hm
    rcases hr with rfl | hr <;> simp [*]

theorem splitLineWorld : ModifyWorld 2 0 false splitLineRank (fun _ => [0, 1]) (fun _ => 1) (fun _ d => if d = 1 then [0] else [])
    (fun r _ _ => if r = 0 then 1 else 0) (fun r _ v => [(0, if (v = 1) = (r = 0) then 0 else 8)])
    (fun r => if r = 0 then [0, 1] else [1, 2]) (fun r _ _ => r) lineChange where
  input := fun r _ => lineInput r
  globals := by
    intro r hr
    have : r = 0 ∨ r = 1 := by omega
    rcases this with rfl | rfl <;> rfl
  globalsLen := by
    intro r hr
    have : r = 0 ∨ r = 1 := by omega
    rcases this with rfl | rfl <;> rfl
  globalsLt := by
    intro r hr
    have : r = 0 ∨ r = 1 := by omega
    rcases this with rfl | rfl <;> decide
  ownedLen := by
    intro r hr d
    have : r = 0 ∨ r = 1 := by omega
    by_cases hd : d = 0
    · subst hd; rcases this with rfl | rfl <;> rfl
    · rcases this with rfl | rfl <;> simp [splitLineRank, splitLineMesh, hd]
  owned := by
    intro g hg
    have : g = 0 ∨ g = 1 ∨ g = 2 := by simp [lineChange] at hg; omega
    rcases this with rfl | rfl | rfl
    · exact ⟨0, 0, 1, by decide, rfl, rfl, by decide⟩
    · exact ⟨0, 1, 1, by decide, rfl, rfl, by decide⟩
    · exact ⟨1, 1, 1, by decide, rfl, rfl, by decide⟩
  ownedOnce := by
    intro g r i o r' i' o' hr hr' h1 h2 h3 h4 h5 h6
    have key : ∀ r ∈ List.range 2, ∀ i ∈ List.range 2, ∀ r' ∈ List.range 2, ∀ i' ∈ List.range 2,
        (if r = 0 then [0, 1] else [1, 2])[i]? = (if r' = 0 then [0, 1] else [1, 2])[i']? →
        ((splitLineRank r).mesh.owned 0)[i]? ≠ some 0 → ((splitLineRank r').mesh.owned 0)[i']? ≠ some 0 → r = r' ∧ i = i' := by decide
    have len : ∀ r i g : Nat, (if r = 0 then [0, 1] else [1, 2])[i]? = some g → i < 2 := by
      intro r i g h
      have := (List.getElem?_eq_some_iff.1 h).1
      split at this <;> simpa using this
    refine key r (List.mem_range.2 hr) i (List.mem_range.2 (len r i g h1)) r' (List.mem_range.2 hr') i'
      (List.mem_range.2 (len r' i' g h2)) (h1.trans h2.symm) ?_ ?_
    · rw [h3]; simpa using h4
    · rw [h5]; simpa using h6
  stays := by
    intro r i g hr h
    have : i < 2 := by
      have := (List.getElem?_eq_some_iff.1 h).1
      split at this <;> simpa using this
    refine ⟨fun _ => rfl, fun _ => ?_⟩
    have : i = 0 ∨ i = 1 := by omega
    rcases this with rfl | rfl <;> decide
  mods := by
    intro r d m hr hm
    obtain ⟨rfl, rfl⟩ := lineMod hm
    have : r = 0 ∨ r = 1 := by omega
    refine ⟨?_, ?_, ?_, fun h => by omega, fun _ => ⟨[(r : Int)], 0, rfl, rfl, rfl⟩⟩
    · rcases this with rfl | rfl <;> decide
    · rcases this with rfl | rfl <;> rfl
    · intro prods lo hi h1 h2 h3
      obtain rfl : [0, 1] = prods := Option.some.inj h1
      obtain rfl : 0 = lo := Option.some.inj h2
      obtain rfl : 1 = hi := Option.some.inj h3
      rfl
  orders := by
    intro r d _ _ hs
    by_cases hd : d = 1
    · subst hd; rfl
    · simp [splitLineRank, hd] at hs
  modsDistinct := by
    intro r d m m' _ hm hm' _
    obtain ⟨_, rfl⟩ := lineMod hm
    obtain ⟨_, rfl⟩ := lineMod hm'
    rfl
  modOwned := by
    intro x hx
    have : x = (1, 0) ∨ x = (1, 1) := by simpa [lineChange] using hx
    rcases this with rfl | rfl
    · exact ⟨0, 0, 0, 1, by decide, ⟨rfl, by decide⟩, rfl, rfl, rfl, by decide⟩
    · exact ⟨1, 0, 0, 1, by decide, ⟨rfl, by decide⟩, rfl, rfl, rfl, by decide⟩
  modOwnedOnce := fun _ _ _ _ _ _ _ _ _ _ _ _ _ h _ _ _ _ _ _ => h

theorem lineChange_ok : lineChange.Ok := by
  refine ⟨by decide, by decide, by decide, ?_⟩
  intro x hx y hy hne _ _ _
  have hx : x = (1, 0) ∨ x = (1, 1) := by simpa [lineChange] using hx
  have hy : y = (1, 0) ∨ y = (1, 1) := by simpa [lineChange] using hy
  rcases hx with rfl | rfl <;> rcases hy with rfl | rfl
  · exact absurd rfl hne
  · exact Or.inl (by decide)
  · exact Or.inr (by decide)
  · exact absurd rfl hne

example : (∀ g, g < lineChange.N → lineChange.represented g + 1 < 2 ^ 31) ∧
    ∀ r, r < 2 → collectSame Sched.serial Sched.reversed ((splitLineRank r).mesh.nents 0) ((splitLineRank r).mdsAreMods 0) false = some [0, 1] := by
  refine ⟨?_, ?_⟩
  · intro g hg
    have : g = 0 ∨ g = 1 ∨ g = 2 := by simp [lineChange] at hg; omega
    rcases this with rfl | rfl | rfl <;> decide
  · intro r _; rfl

/-- The owners of the vertices. -/
def lineOwners : OldLevel where
  nents := fun _ => 2
  ownRanks := fun r => if r = 0 then [0, 0] else [0, 1]
  ownIdxs := fun r => if r = 0 then [0, 1] else [1, 1]
  globals := fun r => if r = 0 then [0, 1] else [1, 2]
  lows := fun _ => []
  codes := none
  tags := []

/-- The hypotheses of `C65_owners` hold. -/
example : ∃ (l : Nat → NewNumbers) (ranks idxs globals : Nat → List Int),
    modifyEnts (fun _ _ _ => Sched.reversed) 0 false (world 2 splitLineRank) (levelOf 2 lineOwners) =
      some ⟨world 2 l, some (world 2 ranks, world 2 idxs), world 2 globals⟩ := by
  have hg : ∀ r i g : Nat, (if r = 0 then [0, 1] else [1, 2])[i]? = some g → i < 2 := by
    intro r i g h
    have := (List.getElem?_eq_some_iff.1 h).1
    split at this <;> simpa using this
  obtain ⟨l, ranks, idxs, globals, h, _⟩ := C65_owners splitLineWorld lineChange_ok (by decide) (by decide) (by decide) (by
    intro g hg
    have : g = 0 ∨ g = 1 ∨ g = 2 := by simp [lineChange] at hg; omega
    rcases this with rfl | rfl | rfl <;> decide) (fun _ _ _ => Sched.reversed) (fun r _ => rfl) lineOwners (by
      refine ⟨?_, ?_, ?_, ?_, by simp [lineOwners]⟩
      · intro r _; simp only [lineOwners]; split <;> rfl
      · intro r _; simp only [lineOwners]; split <;> rfl
      · intro r i p x hr h
        have key : ∀ r ∈ List.range 2, ∀ i ∈ List.range 2, ∀ q, lineOwners.owner (r, i) = some q → q.1 < 2 ∧ q.2 < 2 := by
          intro r hr i hi q hq
          have : r = 0 ∨ r = 1 := by have := List.mem_range.1 hr; omega
          have : i = 0 ∨ i = 1 := by have := List.mem_range.1 hi; omega
          rcases ‹r = 0 ∨ r = 1› with rfl | rfl <;> rcases ‹i = 0 ∨ i = 1› with rfl | rfl <;>
            (obtain rfl := Option.some.inj hq; decide)
        have hi : i < 2 := by
          have : (lineOwners.ownRanks r)[i]? ≠ none := by
            intro hn
            simp [OldLevel.owner, hn] at h
          have := (List.getElem?_eq_none_iff (l := lineOwners.ownRanks r) (i := i)).not.1 this
          simp only [lineOwners] at this
          split at this <;> simpa using this
        exact key r (List.mem_range.2 hr) i (List.mem_range.2 hi) (p, x) h
      · intro r _; simp only [lineOwners]; split <;> rfl) (fun r _ => rfl) (by
      intro g r i hr h
      have hcases : ∀ g : Nat, g < 3 → ∃ q k : Nat, q < 2 ∧ (if q = 0 then [0, 1] else [1, 2])[k]? = some g ∧
          ∀ r' ∈ List.range 2, ∀ i' ∈ List.range 2, (if r' = 0 then [0, 1] else [1, 2])[i']? = some g →
            ((lineOwners.ownRanks r').map (fun x : Nat => (x : Int)))[i']? = some (q : Int) ∧
            ((lineOwners.ownIdxs r').map (fun x : Nat => (x : Int)))[i']? = some (k : Int) := by
        intro g hg
        have : g = 0 ∨ g = 1 ∨ g = 2 := by omega
        rcases this with rfl | rfl | rfl
        · exact ⟨0, 0, by decide, rfl, by decide⟩
        · exact ⟨0, 1, by decide, rfl, by decide⟩
        · exact ⟨1, 1, by decide, rfl, by decide⟩
      obtain ⟨q, k, q1, q2, q3⟩ := hcases g (splitLineWorld.globalsLt r hr g (List.mem_of_getElem? h))
      exact ⟨q, k, q1, q2, fun r' i' hr' h' => q3 r' (List.mem_range.2 hr') i' (List.mem_range.2 (hg r' i' g h')) h'⟩) (fun _ _ _ _ _ _ _ _ _ h => h)
  exact ⟨l, ranks, idxs, globals, h⟩

/-- Vertices 0, 1, 2 get the numbers 0, 1, 4, and the middles of the edges 2 and 3, as on one rank. -/
example : (modifyEnts (fun _ _ _ => Sched.reversed) 0 false (world 2 splitLineRank) (levelOf 2 lineOwners)).map ModifiedEnts.globals =
    some [[0, 1, 2], [1, 3, 4]] := by decide +kernel

/-- The copy of vertex 1 on rank 1 is owned by new vertex 1 of rank 0. -/
example : (modifyEnts (fun _ _ _ => Sched.serial) 0 false (world 2 splitLineRank) (levelOf 2 lineOwners)).bind ModifiedEnts.owners =
    some ([[0, 0, 0], [0, 1, 1]], [[0, 1, 2], [1, 1, 2]]) := by decide +kernel

theorem filterMap_split {α β : Type} (f : α → Option β) (a b : List α) (x : α) (y : β) (h : f x = some y) :
    (a ++ x :: b).filterMap f = a.filterMap f ++ y :: b.filterMap f := by
  rw [List.filterMap_append, List.filterMap_cons_some h]

/-- The place that a key gets among the keys with the same first part is the number of such keys before it in the upward adjacency. -/
theorem C65_places (s : Nat → Sched) {mesh : ModifyMesh} {E K : Nat} {L : Nat → List (Nat × Int)} (h : PlacesInput mesh E K L)
    (marks : List Int) (hm : IsMarks marks) (hlen : marks.length = mesh.nents K) :
    ∃ out, getRep2mdOrderAdapt s mesh K E marks = some out ∧ ∀ (r : Nat) (a b : List (Nat × Int)) (x : Nat × Int), r < mesh.nents E →
      L r = a ++ x :: b → FirstKey marks x → out[x.1]? = some (((a.filter (fun y => FirstKey marks y)).length : Nat) : Int) := by
  obtain ⟨hEK, hK, hdim⟩ := h.dims
  obtain ⟨keys, k1, k2, k3⟩ := C03_collect_marked (s 4) marks hm
  have klt : ∀ k ∈ keys, k < mesh.nents K := by
    intro k hk
    have := (List.getElem?_eq_some_iff.1 ((k3 k).1 hk)).1
    omega
  have knd : keys.Nodup := k2.imp (fun h => Nat.ne_of_lt h)
  let prods := List.range (keys.length + 1)
  have hpf : IsFan prods := by
    refine ⟨List.getElem?_range (by omega), ?_⟩
    intro i lo hi h1 h2
    have h1' : i < keys.length + 1 := by simpa [prods] using (List.getElem?_eq_some_iff.1 h1).1
    have h2' : i + 1 < keys.length + 1 := by simpa [prods] using (List.getElem?_eq_some_iff.1 h2).1
    rw [List.getElem?_range h1'] at h1
    rw [List.getElem?_range h2'] at h2
    have := Option.some.inj h1
    have := Option.some.inj h2
    omega
  have hlast : prods.getLast? = some keys.length := by simp [prods, List.getLast?_range]
  let m2m : Nat → Option (List Nat) := fun d => if d = K then some keys else none
  let m2p : Nat → Option (List Nat) := fun d => if d = K then some prods else none
  have hrepEx : ∀ m : Nat, ∃ r : Nat, ∀ k : Nat, keys[m]? = some k → (mesh.down K E)[k * mesh.degree K E]? = some r ∧ r < mesh.nents E := by
    intro m
    rcases hk : keys[m]? with _ | k
    · exact ⟨0, (fun k h => nomatch h)⟩
    · obtain ⟨r, hr⟩ := h.down k (klt k (List.mem_of_getElem? hk))
      exact ⟨r, fun k' e => by obtain rfl := Option.some.inj e; exact hr⟩
  obtain ⟨rep, hrep⟩ := Classical.axiomOfChoice hrepEx
  have hpb : ∀ d m p, ProducedBy m2p d m p → d = K ∧ InFan prods m p := by
    rintro d m p ⟨ps, h1, h2⟩
    by_cases e : d = K
    · simp only [m2p, e, if_true, Option.some.injEq] at h1
      subst h1
      exact ⟨e, h2⟩
    · simp [m2p, e] at h1
  have hisMod : ∀ d m, IsMod m2p (fun _ => keys) d m → d = K ∧ ∃ k, keys[m]? = some k := by
    rintro d m ⟨h1, h2⟩
    refine ⟨?_, keys[m], List.getElem?_eq_getElem h2⟩
    by_contra e
    simp [m2p, e] at h1
  have hinput : ModifyInput mesh E m2m m2p false (List.range (mesh.nents E)) keys.length (fun _ => keys) (fun _ m => rep m) (fun _ r => L r) := by
    refine ⟨hdim, h.owned, List.pairwise_lt_range, fun r hr => List.mem_range.1 hr, ?_, countProducts_one K (by omega) prods _ hlast,
      ?_, ?_, ?_, ?_, ?_, ?_, ?_, ?_, ?_, ?_⟩
    · intro d ps hd
      by_cases e : d = K
      · simp only [m2p, e, if_true, Option.some.injEq] at hd
        subst hd
        exact ⟨by omega, by simp [m2m, e], by simp [prods], knd, by rw [e]; exact klt, hpf.2⟩
      · simp [m2p, e] at hd
    · intro p hp
      obtain ⟨P', l1, l2⟩ := fan_last hpf
      obtain rfl : keys.length = P' := Option.some.inj (hlast.symm.trans l1)
      obtain ⟨m, hm⟩ := inFan_cover hpf l2 hp
      exact ⟨K, m, prods, if_pos rfl, hm⟩
    · intro d m p hp
      obtain ⟨P', l1, l2⟩ := fan_last hpf
      obtain rfl : keys.length = P' := Option.some.inj (hlast.symm.trans l1)
      exact (inFan_lt hpf (hpb d m p hp).2 l2).1
    · intro d m d' m' p h1 h2
      obtain ⟨e1, f1⟩ := hpb d m p h1
      obtain ⟨e2, f2⟩ := hpb d' m' p h2
      exact ⟨e1.trans e2.symm, inFan_unique hpf f1 f2⟩
    · intro d m hm
      obtain ⟨_, k, hk⟩ := hisMod d m hm
      exact (hrep m k hk).2
    · intro m hm
      obtain ⟨e, _⟩ := hisMod E m hm
      omega
    · intro d m x hd hm hx
      obtain ⟨e, _⟩ := hisMod d m hm
      omega
    · intro d m x hd hm hx
      obtain ⟨e, _⟩ := hisMod d m hm
      subst e
      exact (hrep m x hx).1
    · intro d r hd hs hr
      have e : d = K := by
        by_contra e
        simp [m2p, e] at hs
      subst e
      have b2 := h.each r hr
      refine ⟨h.row r hr, h.ents r hr, ?_, ?_, ?_⟩
      · apply List.Pairwise.filter
        exact b2.imp (fun {x y} hxy e => by subst e; exact hxy rfl rfl)
      · intro x hx y hy hx0 hy0 exy
        obtain ⟨i, hil, hi⟩ := List.mem_iff_getElem.1 hx
        obtain ⟨j, hjl, hj⟩ := List.mem_iff_getElem.1 hy
        rw [List.pairwise_iff_getElem] at b2
        rcases Nat.lt_trichotomy i j with c | c | c
        · have := b2 i j hil hjl c
          rw [hi, hj] at this
          exact absurd (hx0.trans hy0.symm) (this exy)
        · subst c; rw [← hi, ← hj]
        · have := b2 j i hjl hil c
          rw [hi, hj] at this
          exact absurd (hy0.trans hx0.symm) (this exy.symm)
      · intro m x hx
        rw [← h.inv r hr x, (hrep m x hx).1]
        simp
    · intro d m d' m' hd hm
      obtain ⟨e, _⟩ := hisMod d m hm
      omega
    · intro d m hm
      obtain ⟨e, k, hk⟩ := hisMod d m hm
      simp only [List.mem_range]
      exact ⟨fun _ => Or.inr (by omega), fun _ => (hrep m k hk).2⟩
  have hlen1 : ∀ m, m < keys.length → prodLen m2p (K, m) = 1 := by
    intro m hm
    have e1 : prods[m]? = some m := List.getElem?_range (by omega)
    have e2 : prods[m + 1]? = some (m + 1) := List.getElem?_range (by omega)
    simp [prodLen, prodLo, m2p, e1, e2]
  obtain ⟨out, o1, o2⟩ := getRep2mdOrder_spec hinput s (fun d => if d = K then some (List.replicate keys.length 1) else none) (by
    intro d hs
    have e : d = K := by
      by_contra e
      simp [m2p, e] at hs
    subst e
    simp only [if_true, Option.some.injEq]
    apply List.ext_getElem (by simp)
    intro i i1 i2
    have : i < keys.length := by simpa using i1
    simp [hlen1 i this]) K hEK (by simp [m2p])
  refine ⟨out, ?_, ?_⟩
  · unfold getRep2mdOrderAdapt
    rw [k1, Option.bind_some]
    have hb : (fun d => decide (d = K)) = (fun d => (m2p d).isSome) := by
      funext d
      by_cases e : d = K <;> simp [m2p, e]
    rw [hb]
    exact o1
  · rintro r a b ⟨k, code⟩ hr hL ⟨hk, hcode⟩
    simp only at hk hcode
    have hkm : k ∈ keys := (k3 k).2 hk
    obtain ⟨g1, g2⟩ := get_idxOf hkm
    have hrk : rep (keys.idxOf k) = r := by
      have hd := (h.inv r hr k).2 ⟨code, by rw [hL]; simp, hcode⟩
      have := (hrep _ k g1).1
      rw [hd] at this
      exact (Option.some.inj this).symm
    rw [o2 _ k g1]
    have hhigh : repList m2p (fun _ => keys) (fun _ m => rep m) (fun _ r => L r) E mesh.dim r = highAt (fun _ => keys) (fun _ r => L r) K r := by
      unfold repList
      rw [show lowAt m2p (fun _ => keys) (fun _ m => rep m) E mesh.dim r = [] from by
          have := lowAt_nil hinput (d := K) (m := keys.idxOf k) ⟨by simp [m2p], g2⟩ (by omega)
          rw [← hrk]; exact this]
      rw [show midAt m2p (fun _ => keys) E r = [] from by
          unfold midAt
          rw [if_neg]
          rintro ⟨hs, _⟩
          simp [m2p, show E ≠ K by omega] at hs]
      unfold highAll
      have hdims : highDims m2p E mesh.dim = [K] := by
        unfold highDims
        have : (List.range' (E + 1) (mesh.dim - E)).filter (fun d => (m2p d).isSome) =
            (List.range' (E + 1) (mesh.dim - E)).filter (fun d => d == K) := by
          apply List.filter_congr
          intro d _
          by_cases e : d = K <;> simp [m2p, e]
        rw [this, List.filter_beq, List.count_eq_one_of_mem List.nodup_range' (by rw [List.mem_range'_1]; omega)]
        rfl
      rw [hdims]
      simp
    have hsplit : highAt (fun _ => keys) (fun _ r => L r) K r =
        (a.filterMap (fun x => if x.1 ∈ keys then (if codeWhichDown x.2 = 0 then some (K, keys.idxOf x.1) else none) else none)) ++
        (K, keys.idxOf k) ::
        (b.filterMap (fun x => if x.1 ∈ keys then (if codeWhichDown x.2 = 0 then some (K, keys.idxOf x.1) else none) else none)) := by
      show (L r).filterMap _ = _
      rw [hL]
      exact filterMap_split _ a b (k, code) _ (by rw [if_pos hkm, if_pos hcode])
    have hlenA : (a.filterMap (fun x => if x.1 ∈ keys then (if codeWhichDown x.2 = 0 then some (K, keys.idxOf x.1) else none) else none)).length =
        (a.filter (fun y => FirstKey marks y)).length := by
      clear hL hsplit
      induction a with
      | nil => rfl
      | cons y a ih =>
        by_cases c : FirstKey marks y
        · rw [List.filterMap_cons_some (b := (K, keys.idxOf y.1)) (by rw [if_pos ((k3 _).2 c.1), if_pos c.2]), List.filter_cons_of_pos (by simpa using c)]
          simp [ih]
        · rw [List.filterMap_cons_none, List.filter_cons_of_neg (by simpa using c), ih]
          by_cases c1 : y.1 ∈ keys
          · rw [if_pos c1, if_neg (fun e => c ⟨(k3 _).1 c1, e⟩)]
          · rw [if_neg c1]
    have hpos := repPos_of hinput (x := (K, keys.idxOf k)) (i := (a.filter (fun y => FirstKey marks y)).length) ⟨by simp [m2p], g2⟩ (by
      show (repList _ _ _ _ _ _ (rep (keys.idxOf k)))[_]? = _
      rw [hrk, hhigh, hsplit, ← hlenA]
      simp)
    rw [hpos]
    show some (((before _ (repList _ _ _ _ _ _ (rep (keys.idxOf k))) _ : Nat)) : Int) = _
    rw [hrk, hhigh, hsplit, ← hlenA]
    unfold before
    rw [List.take_left]
    congr 2
    rw [hlenA]
    have hone : ∀ (l : List (Nat × Int)),
        ((l.filterMap (fun x => if x.1 ∈ keys then (if codeWhichDown x.2 = 0 then some (K, keys.idxOf x.1) else none) else none)).map (prodLen m2p)).sum =
        (l.filterMap (fun x => if x.1 ∈ keys then (if codeWhichDown x.2 = 0 then some (K, keys.idxOf x.1) else none) else none)).length := by
      intro l
      induction l with
      | nil => rfl
      | cons y l ih =>
        by_cases c : y.1 ∈ keys ∧ codeWhichDown y.2 = 0
        · rw [List.filterMap_cons_some (b := (K, keys.idxOf y.1)) (by rw [if_pos c.1, if_pos c.2])]
          rw [List.map_cons, List.sum_cons, ih, hlen1 _ (get_idxOf c.1).2, List.length_cons]
          omega
        · rw [List.filterMap_cons_none, ih]
          by_cases c1 : y.1 ∈ keys
          · rw [if_pos c1, if_neg (fun e => c ⟨c1, e⟩)]
          · rw [if_neg c1]
    rw [hone, hlenA]

/-- The places of the keys with the same first part `r`: they are `0 .. m - 1`, each once, in the order of the upward adjacency of `r`. -/
theorem C65_places_apart (s : Nat → Sched) {mesh : ModifyMesh} {E K : Nat} {L : Nat → List (Nat × Int)} (h : PlacesInput mesh E K L)
    (marks : List Int) (hm : IsMarks marks) (hlen : marks.length = mesh.nents K) :
    ∃ out, getRep2mdOrderAdapt s mesh K E marks = some out ∧ ∀ r, r < mesh.nents E →
      ((L r).filter (fun y => FirstKey marks y)).map (fun y => out[y.1]?) =
        (List.range ((L r).filter (fun y => FirstKey marks y)).length).map (fun i => some ((i : Nat) : Int)) := by
  obtain ⟨out, o1, o2⟩ := C65_places s h marks hm hlen
  refine ⟨out, o1, fun r hr => ?_⟩
  have key : ∀ a b : List (Nat × Int), L r = a ++ b → (b.filter (fun y => FirstKey marks y)).map (fun y => out[y.1]?) =
      (List.range' (a.filter (fun y => FirstKey marks y)).length (b.filter (fun y => FirstKey marks y)).length).map (fun i => some ((i : Nat) : Int)) := by
    intro a b
    induction b generalizing a with
    | nil => intro _; rfl
    | cons x b ih =>
      intro hL
      have ih' := ih (a ++ [x]) (by rw [hL]; simp)
      rw [List.filter_append] at ih'
      by_cases c : FirstKey marks x
      · rw [List.filter_cons_of_pos (by simpa using c), List.map_cons, List.length_cons, List.range'_succ, List.map_cons, o2 r a b x hr hL c]
        rw [List.filter_cons_of_pos (by simpa using c), List.filter_nil, List.length_append] at ih'
        rw [ih']
        rfl
      · rw [List.filter_cons_of_neg (by simpa using c)]
        rw [List.filter_cons_of_neg (by simpa using c), List.filter_nil, List.append_nil] at ih'
        exact ih'
  rw [key [] (L r) rfl, List.range_eq_range']
  rfl

/-- Two elements, each with a copy on both ranks, and one key that rank 1 owns: both elements move to rank 1. -/
def cavityOwners : Nat → Remotes := fun r => if r = 0 then ⟨[0, 1], [0, 0]⟩ else ⟨[1, 0], [0, 0]⟩

/-- The hypotheses of `C65_cavity_owners` hold. -/
example : ∃ ranks idxs : Nat → List Int,
    setOwnersByIndset (fun _ _ => Sched.reversed) (world 2 fun _ => [0]) (world 2 fun _ => ⟨[0, 2], [0, 1]⟩) (world 2 fun _ => ⟨[1], [0]⟩)
      (world 2 cavityOwners) = some (world 2 ranks, world 2 idxs) := by
  have hd : ∀ r i e, r < 2 → destOf cavityOwners r i = some e → i < 2 ∧ e ∈ [(0, 0), (1, 0)] ∧ destOf cavityOwners e.1 e.2 = some e := by
    intro r i e hr h
    have hi : i < 2 := by
      rcases Nat.lt_or_ge i 2 with h' | h'
      · exact h'
      · exfalso
        obtain ⟨h1, _⟩ := destOf_eq.1 (show destOf cavityOwners r i = some (e.1, e.2) from h)
        rw [List.getElem?_eq_none] at h1
        · exact nomatch h1
        · simp only [cavityOwners]; split <;> exact h'
    have hr' : r = 0 ∨ r = 1 := by omega
    have hi' : i = 0 ∨ i = 1 := by omega
    rcases hr' with rfl | rfl <;> rcases hi' with rfl | rfl <;> (obtain rfl := Option.some.inj h; decide)
  have hc : ∀ i q, InCavity [0] ⟨[0, 2], [0, 1]⟩ [1] i q ↔ i < 2 ∧ q = 1 := by
    intro i q
    constructor
    · rintro ⟨kd, j, h1, h2, h3, h4⟩
      obtain rfl := List.mem_singleton.1 h1
      have hj : ([0, 1] : List Nat)[j]? = some i := h4
      have := List.mem_of_getElem? hj
      simp only [List.mem_cons, List.not_mem_nil, or_false] at this
      exact ⟨by omega, (Option.some.inj h2).symm⟩
    · rintro ⟨h1, rfl⟩
      refine ⟨0, i, by simp, rfl, ⟨0, 2, rfl, rfl, by omega, h1⟩, ?_⟩
      have : i = 0 ∨ i = 1 := by omega
      rcases this with rfl | rfl <;> rfl
  obtain ⟨ranks, idxs, h, _⟩ := C65_cavity_owners (fun _ _ => Sched.reversed) (n := 2) (elemOwners := cavityOwners) (kdOwners := fun _ => ⟨[1], [0]⟩)
    (keys := fun _ => [0]) (kds2elems := fun _ => ⟨[0, 2], [0, 1]⟩) (by
      refine ⟨by decide, ?_, ?_, ?_⟩
      · intro r _ p hp
        have : ∀ r, ∀ p ∈ (cavityOwners r).ranks, p < 2 := by
          intro r; simp only [cavityOwners]; split <;> decide
        exact this r p hp
      · intro r _; simp only [cavityOwners]; split <;> rfl
      · intro r hr i q k h1 h2
        obtain ⟨_, h2, h3⟩ := hd r i (q, k) hr (destOf_eq.2 ⟨h1, h2⟩)
        simp only [List.mem_cons, Prod.mk.injEq, List.not_mem_nil, or_false] at h2
        rcases h2 with ⟨rfl, rfl⟩ | ⟨rfl, rfl⟩ <;> decide) (by
      intro r _
      refine ⟨by simp, by simp, ?_⟩
      rintro kd hk i ⟨lo, hi, h1, h2, h3, h4⟩
      obtain rfl := List.mem_singleton.1 hk
      obtain rfl := Option.some.inj h2
      have : i = 0 ∨ i = 1 := by omega
      rcases this with rfl | rfl
      · exact ⟨0, rfl, by simp only [cavityOwners]; split <;> decide⟩
      · exact ⟨1, rfl, by simp only [cavityOwners]; split <;> decide⟩) (fun r i q k hr h => (hd r i (q, k) hr h).2.2) (fun _ => some 1) (by
      intro r i e q hr h
      rw [hc]
      have := (hd r i e hr h).1
      constructor
      · intro h'; exact ⟨this, (Option.some.inj h').symm⟩
      · rintro ⟨_, rfl⟩; rfl) (by
      intro r i e q hr h h'
      obtain rfl := Option.some.inj h'
      obtain ⟨_, h2, _⟩ := hd r i e hr h
      simp only [List.mem_cons, List.not_mem_nil, or_false] at h2
      rcases h2 with rfl | rfl
      · exact ⟨by decide, 1, by decide⟩
      · exact ⟨by decide, 0, by decide⟩)
  exact ⟨ranks, idxs, h⟩

example : setOwnersByIndset (fun _ _ => Sched.reversed) (world 2 fun _ => [0]) (world 2 fun _ => ⟨[0, 2], [0, 1]⟩) (world 2 fun _ => ⟨[1], [0]⟩)
    (world 2 cavityOwners) = some ([[1, 1], [1, 1]], [[1, 0], [0, 1]]) := by decide +kernel

/-- The two edges of the line on one rank, which both start at vertex 1. -/
def wholeLine : ModifyMesh where
  dim := 1
  nents := fun d => if d = 0 then 3 else 2
  up := fun _ _ => ⟨[0, 1, 3, 4], [0, 0, 1, 1], some [8, 0, 0, 8]⟩
  down := fun _ _ => [1, 0, 1, 2]
  degree := fun _ _ => 2
  owned := fun d => if d = 0 then [1, 1, 1] else [1, 1]

def wholeLineRow : Nat → List (Nat × Int) := fun r => if r = 0 then [(0, 8)] else if r = 1 then [(0, 0), (1, 0)] else [(1, 8)]

/-- The hypotheses of `C65_places` hold. -/
theorem wholeLine_places : PlacesInput wholeLine 0 1 wholeLineRow := by
  have h3 : ∀ r, r < wholeLine.nents 0 → r = 0 ∨ r = 1 ∨ r = 2 := by
    intro r hr
    have : r < 3 := hr
    omega
  refine ⟨by decide, rfl, ?_, ?_, ?_, ?_, ?_⟩
  · intro k hk
    have : k < 2 := hk
    have : k = 0 ∨ k = 1 := by omega
    rcases this with rfl | rfl <;> exact ⟨1, rfl, by decide⟩
  · intro r hr
    rcases h3 r hr with rfl | rfl | rfl
    · refine ⟨[8, 0, 0, 8], 0, 1, rfl, rfl, rfl, rfl, ?_⟩
      intro j x hx
      have : j < 1 := (List.getElem?_eq_some_iff.1 hx).1
      obtain rfl : j = 0 := by omega
      obtain rfl := Option.some.inj hx
      decide
    · refine ⟨[8, 0, 0, 8], 1, 3, rfl, rfl, rfl, rfl, ?_⟩
      intro j x hx
      have : j < 2 := (List.getElem?_eq_some_iff.1 hx).1
      have : j = 0 ∨ j = 1 := by omega
      rcases this with rfl | rfl <;> (obtain rfl := Option.some.inj hx; decide)
    · refine ⟨[8, 0, 0, 8], 3, 4, rfl, rfl, rfl, rfl, ?_⟩
      intro j x hx
      have : j < 1 := (List.getElem?_eq_some_iff.1 hx).1
      obtain rfl : j = 0 := by omega
      obtain rfl := Option.some.inj hx
      decide
  · intro r hr
    rcases h3 r hr with rfl | rfl | rfl <;> decide
  · intro r hr
    rcases h3 r hr with rfl | rfl | rfl <;> decide
  · intro r hr k
    have hl : (wholeLine.down 1 0)[k * wholeLine.degree 1 0]? = some r ↔ k < 2 ∧ r = 1 := by
      constructor
      · intro h
        have : k * 2 < 4 := (List.getElem?_eq_some_iff.1 h).1
        have : k = 0 ∨ k = 1 := by omega
        rcases this with rfl | rfl <;> exact ⟨by omega, (Option.some.inj h).symm⟩
      · rintro ⟨h1, rfl⟩
        have : k = 0 ∨ k = 1 := by omega
        rcases this with rfl | rfl <;> rfl
    rw [hl]
    rcases h3 r hr with rfl | rfl | rfl
    · constructor
      · rintro ⟨_, h⟩; exact absurd h (by decide)
      · rintro ⟨c, h, h'⟩
        have := List.mem_singleton.1 (show (k, c) ∈ [((0 : Nat), (8 : Int))] from h)
        obtain ⟨rfl, rfl⟩ := Prod.mk.inj this
        exact absurd h' (by decide)
    · constructor
      · rintro ⟨h, _⟩
        have : k = 0 ∨ k = 1 := by omega
        rcases this with rfl | rfl <;> exact ⟨0, by decide, by decide⟩
      · rintro ⟨c, h, h'⟩
        have h : (k, c) ∈ [((0 : Nat), (0 : Int)), (1, 0)] := h
        simp only [List.mem_cons, Prod.mk.injEq, List.not_mem_nil, or_false] at h
        exact ⟨by omega, rfl⟩
    · constructor
      · rintro ⟨_, h⟩; exact absurd h (by decide)
      · rintro ⟨c, h, h'⟩
        have := List.mem_singleton.1 (show (k, c) ∈ [((1 : Nat), (8 : Int))] from h)
        obtain ⟨rfl, rfl⟩ := Prod.mk.inj this
        exact absurd h' (by decide)

/-- Both edges are keys: they get the places that `splitLineRank` hands over. -/
example : getRep2mdOrderAdapt (fun _ => Sched.reversed) wholeLine 1 0 [1, 1] = some [0, 1] := by decide +kernel

end OmegaH
