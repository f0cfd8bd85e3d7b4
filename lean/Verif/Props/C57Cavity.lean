import Verif.Props.C57
/-!
# C57: coarsening and swapping carry every field over

Entities that stay keep their values; an entity made by collapsing an edge has the values of the old entity that it
replaces, one made by swapping an edge those of the edge; a pointwise field has the values of the nearest old element of
the cavity. Coarsening makes no vertices.
-/
namespace OmegaH
open OmegaH.Spec

section
variable {K : Type}

theorem bestElem_spec [LinearOrder K] (dist : Nat → K) {elems : List Nat} (hne : elems ≠ []) :
    ∃ e ∈ elems, bestElem dist elems = some (e, dist e) ∧ ∀ e' ∈ elems, dist e ≤ dist e' := by
  have key : ∀ (l : List Nat) (b : Nat), ∃ e, (e = b ∨ e ∈ l) ∧
      l.foldl (fun best e => match best with
        | none => some (e, dist e)
        | some b => if dist e < b.2 then some (e, dist e) else best) (some (b, dist b)) = some (e, dist e) ∧
      dist e ≤ dist b ∧ ∀ e' ∈ l, dist e ≤ dist e' := by
    intro l
    induction l with
    | nil => intro b; exact ⟨b, Or.inl rfl, rfl, le_refl _, by simp⟩
    | cons a l ih =>
      intro b
      by_cases hlt : dist a < dist b
      · obtain ⟨e, h1, h2, h3, h4⟩ := ih a
        refine ⟨e, ?_, ?_, le_trans h3 (le_of_lt hlt), ?_⟩
        · rcases h1 with rfl | h1
          · exact Or.inr (by simp)
          · exact Or.inr (by simp [h1])
        · rw [List.foldl_cons]
          simp only [if_pos hlt]
          exact h2
        · intro e' he'
          rcases List.mem_cons.1 he' with rfl | he'
          · exact h3
          · exact h4 e' he'
      · obtain ⟨e, h1, h2, h3, h4⟩ := ih b
        refine ⟨e, ?_, ?_, h3, ?_⟩
        · rcases h1 with rfl | h1
          · exact Or.inl rfl
          · exact Or.inr (by simp [h1])
        · rw [List.foldl_cons]
          simp only [if_neg hlt]
          exact h2
        · intro e' he'
          rcases List.mem_cons.1 he' with rfl | he'
          · exact le_trans h3 (le_of_not_gt hlt)
          · exact h4 e' he'
  cases elems with
  | nil => exact absurd rfl hne
  | cons a l =>
    obtain ⟨e, h1, h2, h3, h4⟩ := key l a
    refine ⟨e, ?_, ?_, ?_⟩
    · rcases h1 with rfl | h1 <;> simp_all
    · unfold bestElem
      rw [List.foldl_cons]
      exact h2
    · intro e' he'
      rcases List.mem_cons.1 he' with rfl | he'
      · exact h3
      · exact h4 e' he'

/-- The values that pointwise transfer computes for the products. -/
theorem pointwiseProds_spec [LinearOrder K] (s : Sched) (dist : Nat → Nat → K) {nelems : Nat} {offsets elems keys keys2prods : List Nat}
    {x : XferMaps} {near : Nat → List Nat} (h : PickInput nelems offsets elems keys keys2prods x near) {f : MeshField K}
    (hf : f.data.length = nelems * f.ncomps) :
    ∃ v, pointwiseProds s dist offsets elems keys keys2prods x.prods2new f = some v ∧ v.length = x.prods2new.length * f.ncomps ∧
      NearestValues dist keys keys2prods x near f (fun p j => entry v f.ncomps p j) := by
  obtain ⟨nl, l1, l2⟩ := fan_last h.fan
  have hnl := h.last
  rw [l1] at hnl
  obtain rfl := Option.some.inj hnl
  have hkl : ∀ k, k < keys.length ↔ k < keys2prods.length - 1 := by intro k; have := h.len; omega
  -- the element picked for a product
  have hpick : ∀ p, p < x.prods2new.length → ∃ e, ∀ k kd n, InFan keys2prods k p → keys[k]? = some kd → x.prods2new[p]? = some n →
      e ∈ near kd ∧ bestElem (dist n) (near kd) = some (e, dist n e) ∧ ∀ e' ∈ near kd, dist n e ≤ dist n e' := by
    intro p hp
    obtain ⟨k, hk⟩ := inFan_cover h.fan l2 hp
    have hkk := (hkl k).2 (inFan_lt h.fan hk l2).2
    have hkd := List.getElem?_eq_getElem hkk
    obtain ⟨e, e1, e2, e3⟩ := bestElem_spec (dist x.prods2new[p]) (h.near _ (List.mem_of_getElem? hkd)).2.1
    refine ⟨e, ?_⟩
    intro k' kd' n' a1 a2 a3
    obtain rfl := inFan_unique h.fan a1 hk
    rw [hkd] at a2
    obtain rfl := Option.some.inj a2
    rw [List.getElem?_eq_getElem hp] at a3
    obtain rfl := Option.some.inj a3
    exact ⟨e1, e2, e3⟩
  obtain ⟨B, hB⟩ : ∃ B : Nat → Nat, ∀ p, p < x.prods2new.length → ∀ k kd n, InFan keys2prods k p → keys[k]? = some kd → x.prods2new[p]? = some n →
      B p ∈ near kd ∧ bestElem (dist n) (near kd) = some (B p, dist n (B p)) ∧ ∀ e' ∈ near kd, dist n (B p) ≤ dist n e' := by
    classical
    refine ⟨fun p => if hp : p < x.prods2new.length then Classical.choose (hpick p hp) else 0, fun p hp => ?_⟩
    simp only [dif_pos hp]
    exact Classical.choose_spec (hpick p hp)
  have hBlt : ∀ p, p < x.prods2new.length → B p < nelems := by
    intro p hp
    obtain ⟨k, hk⟩ := inFan_cover h.fan l2 hp
    have hkd := List.getElem?_eq_getElem ((hkl k).2 (inFan_lt h.fan hk l2).2)
    exact (h.near _ (List.mem_of_getElem? hkd)).2.2 _ (hB p hp k _ _ hk hkd (List.getElem?_eq_getElem hp)).1
  obtain ⟨out, o1, o2, o3⟩ := parScatter_buildR s keys.length (x.prods2new.length * f.ncomps)
    (fun key => do
      let kd ← keys[key]?
      let prods ← fanMembers keys2prods key
      let ws ← prods.mapM (fun prod => do
        let newElem ← x.prods2new[prod]?
        let elems ← edgeDoms offsets elems kd
        let best ← bestElem (dist newElem) elems
        let row ← domRow f.data f.ncomps best.1
        pure (blockWrites (prod * f.ncomps) row))
      pure ws.flatten)
    (fun k p v => ∃ prod j, InFan keys2prods k prod ∧ j < f.ncomps ∧ p = prod * f.ncomps + j ∧ entry f.data f.ncomps (B prod) j = some v)
    (fun p => entry f.data f.ncomps (B (p / f.ncomps)) (p % f.ncomps))
    (by
      intro k hk
      have hkd := List.getElem?_eq_getElem hk
      obtain ⟨bs, b1, _, b3⟩ := fanMembers_spec ((hkl k).1 hk)
      have hone : ∀ prod ∈ bs, (do
        let newElem ← x.prods2new[prod]?
        let elems ← edgeDoms offsets elems keys[k]
        let best ← bestElem (dist newElem) elems
        let row ← domRow f.data f.ncomps best.1
        pure (blockWrites (prod * f.ncomps) row)) = some (blockWrites (prod * f.ncomps) (row f.data f.ncomps (B prod))) := by
        intro prod hprod
        have hfan := (b3 prod).1 hprod
        have hlt := (inFan_lt h.fan hfan l2).1
        obtain ⟨⟨lo, hi, q1, q2, q3, q4, q5⟩, q6, q7⟩ := h.near _ (List.mem_of_getElem? hkd)
        obtain ⟨p1, p2, p3⟩ := hB prod hlt k _ _ hfan hkd (List.getElem?_eq_getElem hlt)
        rw [List.getElem?_eq_getElem hlt]
        simp only [bind, Option.bind_some]
        rw [edgeDoms_eq q1 q2 q3 q4, Option.bind_some, ← q5, p2, Option.bind_some, domRow_eq hf (hBlt prod hlt)]
        rfl
      obtain ⟨ws, w1, _, w3, _⟩ := mapM_list_spec bs (fun prod => do
        let newElem ← x.prods2new[prod]?
        let elems ← edgeDoms offsets elems keys[k]
        let best ← bestElem (dist newElem) elems
        let row ← domRow f.data f.ncomps best.1
        pure (blockWrites (prod * f.ncomps) row)) (fun prod hprod => by rw [hone prod hprod]; rfl)
      refine ⟨ws.flatten, ?_, ?_⟩
      · rw [hkd]
        simp only [bind, Option.bind_some]
        rw [b1, Option.bind_some]
        simp only [bind] at w1
        rw [w1]
        rfl
      · intro p v
        rw [List.mem_flatten]
        constructor
        · rintro ⟨l, hl, hp⟩
          obtain ⟨prod, hprod, hrow⟩ := (w3 l).1 hl
          rw [hone prod hprod] at hrow
          obtain rfl := Option.some.inj hrow
          obtain ⟨j, rfl, hj⟩ := (mem_blockWrites _ _ _ _).1 hp
          have hjl := (List.getElem?_eq_some_iff.1 hj).1
          have hfan := (b3 prod).1 hprod
          rw [row_length hf (hBlt prod (inFan_lt h.fan hfan l2).1)] at hjl
          rw [row_get _ _ hjl] at hj
          exact ⟨prod, j, hfan, hjl, rfl, hj⟩
        · rintro ⟨prod, j, hfan, hj, rfl, hv⟩
          refine ⟨_, (w3 _).2 ⟨prod, (b3 prod).2 hfan, hone prod ((b3 prod).2 hfan)⟩, ?_⟩
          rw [mem_blockWrites]
          exact ⟨j, rfl, by rw [row_get _ _ hj]; exact hv⟩)
    (by
      rintro k hk p v ⟨prod, j, hfan, hj, rfl, hv⟩
      have d1 : (prod * f.ncomps + j) / f.ncomps = prod := by
        rw [Nat.mul_comm, Nat.mul_add_div (by omega), Nat.div_eq_of_lt hj]; omega
      have d2 : (prod * f.ncomps + j) % f.ncomps = j := by
        rw [Nat.mul_comm, Nat.mul_add_mod, Nat.mod_eq_of_lt hj]
      refine ⟨row_lt (inFan_lt h.fan hfan l2).1 hj, ?_⟩
      rw [d1, d2]
      exact hv)
    (by
      intro p hp
      obtain ⟨prod, j, hprod, hj, rfl⟩ := row_cover hp
      obtain ⟨k, hk⟩ := inFan_cover h.fan l2 hprod
      refine ⟨k, (hkl k).2 (inFan_lt h.fan hk l2).2, f.data[B prod * f.ncomps + j]'(by rw [hf]; exact row_lt (hBlt prod hprod) hj), prod, j, hk, hj, rfl, ?_⟩
      exact List.getElem?_eq_getElem _)
  refine ⟨out, ?_, o2, ?_⟩
  · unfold pointwiseProds
    rw [l1]
    exact o1
  · intro k kd p n h1 h2 h3
    have hlt := (inFan_lt h.fan h2 l2).1
    obtain ⟨p1, p2, p3⟩ := hB p hlt k kd n h2 h1 h3
    refine ⟨B p, p1, p3, ?_⟩
    intro j hj
    show entry out f.ncomps p j = _
    unfold entry at o3 ⊢
    rw [o3 _ (row_lt hlt hj)]
    have d1 : (p * f.ncomps + j) / f.ncomps = p := by
      rw [Nat.mul_comm, Nat.mul_add_div (by omega), Nat.div_eq_of_lt hj]; omega
    have d2 : (p * f.ncomps + j) % f.ncomps = j := by
      rw [Nat.mul_comm, Nat.mul_add_mod, Nat.mod_eq_of_lt hj]
    rw [d1, d2]

/-- The loops of a coarsening or of a swap, up to the step that deals with densities. -/
def cavityRules [LinearOrder K] [Zero K] (mesh : FieldMesh K) (g : XferShapes K) (d : Nat) (x : XferMaps) (base point : XferRule K) :
    List (XferRule K) :=
  [base] ++ ((if d = 1 then [measureRule "length" g.length x] else if d = 2 then [faceFluxRule mesh x] else []) ++
  (if d = mesh.dim then [measureRule "size" g.size x, measureRule "quality" g.quality x, point] else []))

theorem transferCoarsen_eq [LinearOrder K] [Zero K] (s : Nat → Sched) (mesh : FieldMesh K) (opts : XferOpts) (g : XferShapes K) (dist : Nat → Nat → K)
    {d : Nat} (hd : d ≠ 0) (vertOffsets vertElems keys2verts domOffsets doms : List Nat) (x : XferMaps) (t : List (MeshField K)) :
    transferCoarsen s mesh opts g dist d vertOffsets vertElems keys2verts domOffsets doms x t =
      (runRules s (mesh.tags d) x (cavityRules mesh g d x (inheritCoarsenRule s mesh opts doms)
        (pointwiseRule s mesh opts dist vertOffsets vertElems keys2verts domOffsets x)) t).bind
          (fun t => if d = mesh.dim then g.conserve t else some t) := by
  unfold transferCoarsen cavityRules
  simp only [runRules_append, bind, runRules_one, Option.bind_assoc, if_neg hd]
  congr 1
  funext t1
  have hnil : ∀ t, runRules s (mesh.tags d) x [] t = some t := fun _ => rfl
  have hbind : ∀ (t : List (MeshField K)) (F : List (MeshField K) → Option (List (MeshField K))), (pure t : Option _).bind F = F t := fun _ _ => rfl
  simp only [← Bool.cond_decide]
  generalize decide (d = 1) = b1
  generalize decide (d = 2) = b2
  generalize decide (d = mesh.dim) = b3
  cases b1 <;> cases b2 <;> cases b3 <;>
    simp only [cond_true, cond_false, hnil, hbind, Option.bind_some, runRules_one] <;> rfl

theorem transferSwap_eq [LinearOrder K] [Zero K] (s : Nat → Sched) (mesh : FieldMesh K) (opts : XferOpts) (g : XferShapes K) (dist : Nat → Nat → K)
    {d : Nat} (hd : d ≠ 0) (edgeOffsets edgeElems keys2edges keys2prods : List Nat) (x : XferMaps) (t : List (MeshField K)) :
    transferSwap s mesh opts g dist d edgeOffsets edgeElems keys2edges keys2prods x t =
      (runRules s (mesh.tags d) x (cavityRules mesh g d x (inheritSwapRule s mesh opts keys2edges keys2prods)
        (pointwiseRule s mesh opts dist edgeOffsets edgeElems keys2edges keys2prods x)) t).bind
          (fun t => if d = mesh.dim then g.conserve t else some t) := by
  unfold transferSwap cavityRules
  simp only [runRules_append, bind, runRules_one, Option.bind_assoc, if_neg hd]
  congr 1
  funext t1
  have hnil : ∀ t, runRules s (mesh.tags d) x [] t = some t := fun _ => rfl
  have hbind : ∀ (t : List (MeshField K)) (F : List (MeshField K) → Option (List (MeshField K))), (pure t : Option _).bind F = F t := fun _ _ => rfl
  simp only [← Bool.cond_decide]
  generalize decide (d = 1) = b1
  generalize decide (d = 2) = b2
  generalize decide (d = mesh.dim) = b3
  cases b1 <;> cases b2 <;> cases b3 <;>
    simp only [cond_true, cond_false, hnil, hbind, Option.bind_some, runRules_one] <;> rfl

theorem cavity_spec [LinearOrder K] [Zero K] (s : Nat → Sched) {mesh : FieldMesh K} {opts : XferOpts} {g : XferShapes K} {nents : Nat → Nat} {d : Nat}
    (hd : d ≤ mesh.dim) {x : XferMaps} (hfields : ∀ d', d' ≤ mesh.dim → FieldsOk (nents d') (mesh.tags d')) (hx : NumberingOk (nents d) x)
    {base point : XferRule K} (hbt : ∀ f, base.takes f = shouldInherit mesh opts f) (hbok : RuleOk (mesh.tags d) x base)
    {P : MeshField K → Prop} (hpt : ∀ f, point.takes f = true ↔ P f) (hpok : d = mesh.dim → RuleOk (mesh.tags d) x point)
    {L S Q : Nat → K} (hL : d = 1 → MeasureOk x.nnew g.length L)
    (hS : d = mesh.dim → MeasureOk x.nnew g.size S) (hQ : d = mesh.dim → MeasureOk x.nnew g.quality Q) (hF : d = 2 → FluxOk mesh)
    {allowed changed : List String} (hal : allowed.length ≤ 127) (ha : ∀ f ∈ mesh.tags d, f.name ∈ allowed)
    (hC : d = mesh.dim → ChangesOnly changed allowed g.conserve) {t : List (MeshField K)} (ht : NewTags allowed t) :
    ∃ t', (runRules s (mesh.tags d) x (cavityRules mesh g d x base point) t).bind
        (fun t => if d = mesh.dim then g.conserve t else some t) = some t' ∧ NewTags allowed t' ∧
      ∀ f ∈ mesh.tags d, (d = mesh.dim → f.name ∉ changed) →
        (d = mesh.dim → P f → MadeBy x point f (findField t' f.name)) ∧
        (¬ (d = mesh.dim ∧ P f) →
          (Inherited mesh opts f → ¬ Remade mesh.dim d f → MadeBy x base f (findField t' f.name)) ∧
          (d = 1 → Measured "length" f → CarriedTo t' x f (fun p _ => (x.prods2new[p]?).map (fun n => .real (L n)))) ∧
          (d = 2 → f.name = "magnetic face flux" → CarriedTo t' x f (fun _ _ => some (.real 0))) ∧
          (d = mesh.dim → Measured "size" f → CarriedTo t' x f (fun p _ => (x.prods2new[p]?).map (fun n => .real (S n)))) ∧
          (d = mesh.dim → Measured "quality" f → CarriedTo t' x f (fun p _ => (x.prods2new[p]?).map (fun n => .real (Q n)))) ∧
          (¬ Inherited mesh opts f → ¬ Remade mesh.dim d f → Untouched t t' f.name)) := by
  have hFd := hfields d hd
  obtain ⟨_, hpr, _⟩ := numbering_parts hx
  have iInh := shouldInherit_iff hfields opts
  have hok : ∀ r ∈ cavityRules mesh g d x base point, RuleOk (mesh.tags d) x r := by
    intro r hr
    unfold cavityRules at hr
    rw [List.mem_append, List.mem_append] at hr
    rcases hr with hr | hr | hr
    · rw [List.mem_singleton] at hr
      subst hr
      exact hbok
    · split at hr
      · rename_i h1
        rw [List.mem_singleton] at hr
        subst hr
        exact measureRule_ok _ _ (hL h1) hpr
      · split at hr
        · rename_i h2
          rw [List.mem_singleton] at hr
          subst hr
          subst h2
          exact faceFluxRule_ok hFd (hF rfl) x
        · simp at hr
    · split at hr
      · rename_i hdim
        simp only [List.mem_cons, List.not_mem_nil, or_false] at hr
        rcases hr with rfl | rfl | rfl
        · exact measureRule_ok _ _ (hS hdim) hpr
        · exact measureRule_ok _ _ (hQ hdim) hpr
        · exact hpok hdim
      · simp at hr
  obtain ⟨t1, a1, a2, a3, a4⟩ := runRules_spec s hFd hx _ hok hal ha ht
  have hlast : ∀ f, lastTaking (cavityRules mesh g d x base point) f =
      (if d = mesh.dim then
        (if point.takes f = true then some point else
          if (measureRule "quality" g.quality x).takes f = true then some (measureRule "quality" g.quality x) else
          if (measureRule "size" g.size x).takes f = true then some (measureRule "size" g.size x) else none) else none).or
      ((if d = 1 then (if (measureRule "length" g.length x).takes f = true then some (measureRule "length" g.length x) else none)
        else if d = 2 then (if (faceFluxRule mesh x).takes f = true then some (faceFluxRule mesh x) else none) else none).or
      (if shouldInherit mesh opts f = true then some base else none)) := by
    intro f
    unfold cavityRules
    rw [lastTaking_append, lastTaking_append, ← hbt, lastTaking_cons, lastTaking_nil, Option.none_or, Option.or_assoc]
    congr 1
    · split
      · rw [lastTaking_cons, lastTaking_cons, lastTaking_cons, lastTaking_nil, Option.none_or]
        split
        · rfl
        · rw [Option.none_or]
          split
          · rfl
          · rw [Option.none_or]
      · rfl
    · congr 1
      split
      · rw [lastTaking_cons, lastTaking_nil, Option.none_or]
      · split
        · rw [lastTaking_cons, lastTaking_nil, Option.none_or]
        · rfl
  obtain ⟨t', b1, b2, b4⟩ : ∃ t', (if d = mesh.dim then g.conserve t1 else some t1) = some t' ∧ NewTags allowed t' ∧
      ∀ n, (d = mesh.dim → n ∉ changed) → findField t' n = findField t1 n := by
    by_cases hdim : d = mesh.dim
    · obtain ⟨t2, c1, c2, c3⟩ := hC hdim t1 a2
      exact ⟨t2, by rw [if_pos hdim, c1], c2, fun n hn => c3 n (hn hdim)⟩
    · exact ⟨t1, by rw [if_neg hdim], a2, fun _ _ => rfl⟩
  refine ⟨t', by rw [a1]; exact b1, b2, ?_⟩
  intro f hf hch
  have made : ∀ r, lastTaking (cavityRules mesh g d x base point) f = some r → MadeBy x r f (findField t' f.name) := by
    intro r hr
    rw [b4 f.name hch]
    exact a3 f hf r hr
  have iLen := measured_iff "length" g.length x f
  have iSiz := measured_iff "size" g.size x f
  have iQua := measured_iff "quality" g.quality x f
  have iFlx : (faceFluxRule mesh x).takes f = true ↔ f.name = "magnetic face flux" := by simp [faceFluxRule]
  have hname : ∀ {a b : String}, a ≠ b → Measured a f → ¬ Measured b f := fun hab h1 h2 => hab (h1.1.symm.trans h2.1)
  refine ⟨?_, ?_⟩
  · intro hdim hp
    apply made
    rw [hlast, if_pos hdim, if_pos ((hpt f).2 hp)]
    rfl
  · intro hE
    have hnd : d = mesh.dim → ¬ point.takes f = true := fun hdim q => hE ⟨hdim, (hpt f).1 q⟩
    have hDnone : (d = mesh.dim → ¬ Measured "quality" f ∧ ¬ Measured "size" f) → (if d = mesh.dim then
          (if point.takes f = true then some point else
          if (measureRule "quality" g.quality x).takes f = true then some (measureRule "quality" g.quality x) else
          if (measureRule "size" g.size x).takes f = true then some (measureRule "size" g.size x) else none) else none) = none := by
      intro hq
      split
      · rename_i hdim
        rw [if_neg (hnd hdim), if_neg (fun q => (hq hdim).1 (iQua.1 q)), if_neg (fun q => (hq hdim).2 (iSiz.1 q))]
      · rfl
    have hMnone : (d = 1 → ¬ Measured "length" f) → (d = 2 → f.name ≠ "magnetic face flux") →
        (if d = 1 then (if (measureRule "length" g.length x).takes f = true then some (measureRule "length" g.length x) else none)
          else if d = 2 then (if (faceFluxRule mesh x).takes f = true then some (faceFluxRule mesh x) else none) else none) = none := by
      intro h1' h2'
      split
      · rename_i h1
        rw [if_neg (fun q => h1' h1 (iLen.1 q))]
      · split
        · rename_i h2
          rw [if_neg (fun q => h2' h2 (iFlx.1 q))]
        · rfl
    refine ⟨?_, ?_, ?_, ?_, ?_, ?_⟩
    · intro hinh hrem
      apply made
      unfold Remade at hrem
      rw [hlast, hDnone (fun hdim => ⟨fun q => hrem (Or.inr (Or.inr ⟨hdim, Or.inr q⟩)), fun q => hrem (Or.inr (Or.inr ⟨hdim, Or.inl q⟩))⟩),
        hMnone (fun h1 q => hrem (Or.inl ⟨h1, q⟩)) (fun h2 q => hrem (Or.inr (Or.inl ⟨h2, q⟩))), if_pos ((iInh f).2 hinh)]
      rfl
    · intro h1 hm
      refine measureRule_made (hL h1) hpr hm (made _ ?_)
      rw [hlast, hDnone (fun _ => ⟨hname (by decide) hm, hname (by decide) hm⟩), Option.none_or, if_pos h1, if_pos (iLen.2 hm)]
      rfl
    · intro h2 hm
      have hnn : ∀ b : String, b ≠ "magnetic face flux" → ¬ Measured b f := fun b hb q => hb (q.1.symm.trans hm)
      refine faceFluxRule_made (mesh := mesh) ((hF h2) f (by subst h2; exact hf) hm).2 (made _ ?_)
      rw [hlast, hDnone (fun _ => ⟨hnn _ (by decide), hnn _ (by decide)⟩), Option.none_or, if_neg (by omega), if_pos h2, if_pos (iFlx.2 hm)]
      rfl
    · intro hdim hm
      refine measureRule_made (hS hdim) hpr hm (made _ ?_)
      rw [hlast, if_pos hdim, if_neg (hnd hdim), if_neg (fun q => hname (by decide) hm (iQua.1 q)), if_pos (iSiz.2 hm)]
      rfl
    · intro hdim hm
      refine measureRule_made (hQ hdim) hpr hm (made _ ?_)
      rw [hlast, if_pos hdim, if_neg (hnd hdim), if_pos (iQua.2 hm)]
      rfl
    · intro hni hrem
      unfold Remade at hrem
      show findField t' f.name = findField t f.name
      rw [b4 f.name hch, a4 f.name]
      intro f' hf' hnn
      have h1 := findField_mem hFd.names hf
      have h2 := findField_mem hFd.names hf'
      rw [hnn, h1] at h2
      obtain rfl := Option.some.inj h2
      rw [hlast, hDnone (fun hdim => ⟨fun q => hrem (Or.inr (Or.inr ⟨hdim, Or.inr q⟩)), fun q => hrem (Or.inr (Or.inr ⟨hdim, Or.inl q⟩))⟩),
        hMnone (fun h1 q => hrem (Or.inl ⟨h1, q⟩)) (fun h2 q => hrem (Or.inr (Or.inl ⟨h2, q⟩))), if_neg (fun q => hni ((iInh f).1 q))]
      rfl

theorem pointwiseRule_takes [LinearOrder K] (s : Nat → Sched) (mesh : FieldMesh K) (opts : XferOpts) (dist : Nat → Nat → K)
    (offsets elems keys keys2prods : List Nat) (x : XferMaps) (f : MeshField K) :
    (pointwiseRule s mesh opts dist offsets elems keys keys2prods x).takes f = true ↔ PointwiseField opts f ∧ (mesh.dim = 2 ∨ mesh.dim = 3) := by
  unfold pointwiseRule
  simp only [Bool.and_eq_true, Bool.or_eq_true, decide_eq_true_eq, shouldFit_iff]
  tauto

theorem pointwiseRule_ok [LinearOrder K] (s : Nat → Sched) {mesh : FieldMesh K} (opts : XferOpts) (dist : Nat → Nat → K) {nelems : Nat}
    {offsets elems keys keys2prods : List Nat} {x : XferMaps} {near : Nat → List Nat} (h : PickInput nelems offsets elems keys keys2prods x near)
    (hF : FieldsOk nelems (mesh.tags mesh.dim)) : RuleOk (mesh.tags mesh.dim) x (pointwiseRule s mesh opts dist offsets elems keys keys2prods x) := by
  intro f hf ht
  have hk := ((pointwiseRule_takes s mesh opts dist offsets elems keys keys2prods x f).1 ht).1.2
  obtain ⟨v, v1, v2, _⟩ := pointwiseProds_spec (s 3) dist h (hF.size f hf)
  refine ⟨v, ?_, v2⟩
  unfold pointwiseRule
  simp only [v1, Option.map_some, hk]

theorem pointwiseRule_made [LinearOrder K] (s : Nat → Sched) {mesh : FieldMesh K} (opts : XferOpts) (dist : Nat → Nat → K) {nelems : Nat}
    {offsets elems keys keys2prods : List Nat} {x : XferMaps} {near : Nat → List Nat} (h : PickInput nelems offsets elems keys keys2prods x near)
    (hF : FieldsOk nelems (mesh.tags mesh.dim)) {f : MeshField K} (hf : f ∈ mesh.tags mesh.dim) {t : List (MeshField K)}
    (hm : MadeBy x (pointwiseRule s mesh opts dist offsets elems keys keys2prods x) f (findField t f.name)) :
    ∃ val, CarriedTo t x f val ∧ NearestValues dist keys keys2prods x near f val := by
  obtain ⟨g, v, h1, h2, h3⟩ := hm
  obtain ⟨v', v1, v2, v3⟩ := pointwiseProds_spec (s 3) dist h (hF.size f hf)
  unfold pointwiseRule at h2
  simp only [v1, Option.map_some, Option.some.injEq, Prod.mk.injEq] at h2
  obtain rfl := h2.2.2
  exact ⟨_, ⟨g, (findField_some h1).1, h3⟩, v3⟩

/-- Coarsening, on edges, faces and elements. -/
theorem C57_coarsen_partial [LinearOrder K] [Zero K] (s : Nat → Sched) {mesh : FieldMesh K} {opts : XferOpts} {g : XferShapes K} {dist : Nat → Nat → K}
    {nents : Nat → Nat} {d : Nat} (hd0 : d ≠ 0) (hd : d ≤ mesh.dim) {vertOffsets vertElems keys2verts domOffsets doms : List Nat} {x : XferMaps}
    (hfields : ∀ d', d' ≤ mesh.dim → FieldsOk (nents d') (mesh.tags d')) (hx : NumberingOk (nents d) x)
    (hdoms : InRange doms (nents d)) (hcount : x.prods2new.length = doms.length)
    {near : Nat → List Nat} (hpick : d = mesh.dim → PickInput (nents d) vertOffsets vertElems keys2verts domOffsets x near)
    {L S Q : Nat → K} (hL : d = 1 → MeasureOk x.nnew g.length L)
    (hS : d = mesh.dim → MeasureOk x.nnew g.size S) (hQ : d = mesh.dim → MeasureOk x.nnew g.quality Q) (hF : d = 2 → FluxOk mesh)
    {allowed changed : List String} (hal : allowed.length ≤ 127) (ha : ∀ f ∈ mesh.tags d, f.name ∈ allowed)
    (hC : d = mesh.dim → ChangesOnly changed allowed g.conserve) {t : List (MeshField K)} (ht : NewTags allowed t) :
    ∃ t', transferCoarsen s mesh opts g dist d vertOffsets vertElems keys2verts domOffsets doms x t = some t' ∧ NewTags allowed t' ∧
      ∀ f ∈ mesh.tags d, (d = mesh.dim → f.name ∉ changed) →
        (d = mesh.dim → PointwiseField opts f → mesh.dim = 2 ∨ mesh.dim = 3 →
          ∃ val, CarriedTo t' x f val ∧ NearestValues dist keys2verts domOffsets x near f val) ∧
        (¬ (d = mesh.dim ∧ PointwiseField opts f ∧ (mesh.dim = 2 ∨ mesh.dim = 3)) →
          (Inherited mesh opts f → ¬ Remade mesh.dim d f →
            CarriedTo t' x f (fun p j => (doms[p]?).bind (fun dom => entry f.data f.ncomps dom j))) ∧
          (d = 1 → Measured "length" f → CarriedTo t' x f (fun p _ => (x.prods2new[p]?).map (fun n => .real (L n)))) ∧
          (d = 2 → f.name = "magnetic face flux" → CarriedTo t' x f (fun _ _ => some (.real 0))) ∧
          (d = mesh.dim → Measured "size" f → CarriedTo t' x f (fun p _ => (x.prods2new[p]?).map (fun n => .real (S n)))) ∧
          (d = mesh.dim → Measured "quality" f → CarriedTo t' x f (fun p _ => (x.prods2new[p]?).map (fun n => .real (Q n)))) ∧
          (¬ Inherited mesh opts f → ¬ Remade mesh.dim d f → Untouched t t' f.name)) := by
  have hFd := hfields d hd
  have hbase : ∀ f ∈ mesh.tags d, ∃ v, (inheritCoarsenRule s mesh opts doms).prods f = some (f.kind, f.ncomps, v) ∧
      v.length = x.prods2new.length * f.ncomps ∧ ∀ p dom j : Nat, doms[p]? = some dom → j < f.ncomps → entry v f.ncomps p j = entry f.data f.ncomps dom j := by
    intro f hf
    obtain ⟨v, v1, v2, v3⟩ := C05_unmap (s 3) doms f.data f.ncomps (nents d) (Nat.le_of_eq (hFd.size f hf).symm) hdoms
    refine ⟨v, ?_, by rw [v2, hcount], v3⟩
    unfold inheritCoarsenRule
    simp only [v1, Option.map_some]
  obtain ⟨t', t1, t2, t3⟩ := cavity_spec s hd hfields hx (base := inheritCoarsenRule s mesh opts doms)
    (point := pointwiseRule s mesh opts dist vertOffsets vertElems keys2verts domOffsets x) (fun _ => rfl)
    (by intro f hf _; obtain ⟨v, v1, v2, _⟩ := hbase f hf; exact ⟨v, v1, v2⟩)
    (pointwiseRule_takes s mesh opts dist vertOffsets vertElems keys2verts domOffsets x)
    (by intro hdim; subst hdim; exact pointwiseRule_ok s opts dist (hpick rfl) hFd) hL hS hQ hF hal ha hC ht
  refine ⟨t', by rw [transferCoarsen_eq s mesh opts g dist hd0]; exact t1, t2, ?_⟩
  intro f hf hch
  obtain ⟨u1, u2⟩ := t3 f hf hch
  refine ⟨?_, ?_⟩
  · intro hdim hp hdd
    subst hdim
    exact pointwiseRule_made s opts dist (hpick rfl) hFd hf (u1 rfl ⟨hp, hdd⟩)
  · intro hE
    obtain ⟨w1, w2⟩ := u2 hE
    refine ⟨?_, w2⟩
    intro hinh hrem
    obtain ⟨g', v, h1, h2, h3⟩ := w1 hinh hrem
    obtain ⟨v', v1, v2, v3⟩ := hbase f hf
    rw [v1] at h2
    obtain rfl : v' = v := by simpa using h2
    refine ⟨g', (findField_some h1).1, ⟨h3.name, h3.kind, h3.ncomps, h3.size, h3.same, ?_⟩⟩
    intro p n j hpn hj
    have hpl := (List.getElem?_eq_some_iff.1 hpn).1
    rw [hcount] at hpl
    rw [h3.prods p n j hpn hj, v3 p _ j (List.getElem?_eq_getElem hpl) hj, List.getElem?_eq_getElem hpl]
    rfl

/-- Coarsening, on vertices: there are no products. -/
theorem C57_coarsen_verts [LinearOrder K] [Zero K] (s : Nat → Sched) {mesh : FieldMesh K} {opts : XferOpts} {g : XferShapes K} {dist : Nat → Nat → K}
    {nents : Nat → Nat} (hD : 1 ≤ mesh.dim) {vertOffsets vertElems keys2verts domOffsets doms : List Nat} {x : XferMaps}
    (hfields : ∀ d', d' ≤ mesh.dim → FieldsOk (nents d') (mesh.tags d')) (hx : NumberingOk (nents 0) x) (hnone : x.prods2new = [])
    {allowed : List String} (hal : allowed.length ≤ 127) (ha : ∀ f ∈ mesh.tags 0, f.name ∈ allowed) {t : List (MeshField K)} (ht : NewTags allowed t) :
    ∃ t', transferCoarsen s mesh opts g dist 0 vertOffsets vertElems keys2verts domOffsets doms x t = some t' ∧ NewTags allowed t' ∧
      ∀ f ∈ mesh.tags 0,
        (Inherited mesh opts f ∨ Interpolated opts f ∨ MetricField mesh opts f → CarriedTo t' x f (fun _ _ => none)) ∧
        (¬ Inherited mesh opts f → ¬ Interpolated opts f → ¬ MetricField mesh opts f → Untouched t t' f.name) := by
  have hF0 := hfields 0 (by omega)
  have htk : ∀ f, (noProductsRule mesh opts 0).takes f = true ↔ Inherited mesh opts f ∨ Interpolated opts f ∨ MetricField mesh opts f := by
    intro f
    unfold noProductsRule
    simp only [shouldTransferNoProducts, Bool.or_eq_true, shouldInherit_iff hfields, shouldInterpolate_iff, isMetric_iff]
    have hne : ¬ (0 = mesh.dim) := by omega
    simp only [shouldConserve, isDensity, isMomentumVelocity, isTransferRequired, hne, decide_false, Bool.and_false, Bool.false_and,
      Bool.and_eq_true, decide_eq_true_eq, Bool.false_eq_true, or_false]
    unfold Interpolated
    tauto
  have hxx : ({ x with prods2new := [] } : XferMaps) = x := by cases x; simp_all
  obtain ⟨t', a1, a2, a3, a4⟩ := runRules_spec s hF0 hx [noProductsRule mesh opts 0] (by
    intro r hr
    rw [List.mem_singleton] at hr
    subst hr
    intro f _ _
    exact ⟨[], rfl, by rw [hnone]; simp⟩) hal ha ht
  have hl : ∀ f, lastTaking [noProductsRule mesh opts 0] f = if (noProductsRule mesh opts 0).takes f = true then some (noProductsRule mesh opts 0) else none := by
    intro f
    rw [lastTaking_cons, lastTaking_nil, Option.none_or]
  refine ⟨t', ?_, a2, ?_⟩
  · unfold transferCoarsen
    simp only [if_true, bind, hxx]
    rw [runRules_one] at a1
    have hne : ¬ (0 = mesh.dim) := by omega
    simp [a1, hne]
  · intro f hf
    refine ⟨?_, ?_⟩
    · intro hc
      obtain ⟨g', v, h1, h2, h3⟩ := a3 f hf _ (by rw [hl, if_pos ((htk f).2 hc)])
      refine ⟨g', (findField_some h1).1, ⟨h3.name, h3.kind, h3.ncomps, h3.size, h3.same, ?_⟩⟩
      intro p n j hpn
      rw [hnone] at hpn
      simp at hpn
    · intro h1 h2 h3
      show findField t' f.name = findField t f.name
      apply a4 f.name
      intro f' hf' hnn
      have e1 := findField_mem hF0.names hf
      have e2 := findField_mem hF0.names hf'
      rw [hnn, e1] at e2
      obtain rfl := Option.some.inj e2
      rw [hl, if_neg]
      intro q
      rcases (htk f).1 q with q | q | q
      · exact h1 q
      · exact h2 q
      · exact h3 q

/-- Swapping, on edges, faces and elements. -/
theorem C57_swap_partial [LinearOrder K] [Zero K] (s : Nat → Sched) {mesh : FieldMesh K} {opts : XferOpts} {g : XferShapes K} {dist : Nat → Nat → K}
    {nents : Nat → Nat} {d : Nat} (hd0 : d ≠ 0) (hd : d ≤ mesh.dim) {edgeOffsets edgeElems keys2edges keys2prods : List Nat} {x : XferMaps}
    (hfields : ∀ d', d' ≤ mesh.dim → FieldsOk (nents d') (mesh.tags d')) (hx : NumberingOk (nents d) x)
    (hkeys : InRange keys2edges (nents 1)) (hfan : IsFan keys2prods) (hlen : keys2prods.length = keys2edges.length + 1)
    (hlast : keys2prods.getLast? = some x.prods2new.length)
    {near : Nat → List Nat} (hpick : d = mesh.dim → PickInput (nents d) edgeOffsets edgeElems keys2edges keys2prods x near)
    {L S Q : Nat → K} (hL : d = 1 → MeasureOk x.nnew g.length L)
    (hS : d = mesh.dim → MeasureOk x.nnew g.size S) (hQ : d = mesh.dim → MeasureOk x.nnew g.quality Q) (hF : d = 2 → FluxOk mesh)
    {allowed changed : List String} (hal : allowed.length ≤ 127) (ha : ∀ f ∈ mesh.tags d, f.name ∈ allowed)
    (hC : d = mesh.dim → ChangesOnly changed allowed g.conserve) {t : List (MeshField K)} (ht : NewTags allowed t) :
    ∃ t', transferSwap s mesh opts g dist d edgeOffsets edgeElems keys2edges keys2prods x t = some t' ∧ NewTags allowed t' ∧
      ∀ f ∈ mesh.tags d, (d = mesh.dim → f.name ∉ changed) →
        (d = mesh.dim → PointwiseField opts f → mesh.dim = 2 ∨ mesh.dim = 3 →
          ∃ val, CarriedTo t' x f val ∧ NearestValues dist keys2edges keys2prods x near f val) ∧
        (¬ (d = mesh.dim ∧ PointwiseField opts f ∧ (mesh.dim = 2 ∨ mesh.dim = 3)) →
          (Inherited mesh opts f → ¬ Remade mesh.dim d f → ∃ val, CarriedTo t' x f val ∧
            ∀ k e p j : Nat, keys2edges[k]? = some e → InFan keys2prods k p → j < f.ncomps → val p j = fieldAt mesh f.name (1, e) j) ∧
          (d = 1 → Measured "length" f → CarriedTo t' x f (fun p _ => (x.prods2new[p]?).map (fun n => .real (L n)))) ∧
          (d = 2 → f.name = "magnetic face flux" → CarriedTo t' x f (fun _ _ => some (.real 0))) ∧
          (d = mesh.dim → Measured "size" f → CarriedTo t' x f (fun p _ => (x.prods2new[p]?).map (fun n => .real (S n)))) ∧
          (d = mesh.dim → Measured "quality" f → CarriedTo t' x f (fun p _ => (x.prods2new[p]?).map (fun n => .real (Q n)))) ∧
          (¬ Inherited mesh opts f → ¬ Remade mesh.dim d f → Untouched t t' f.name)) := by
  have hFd := hfields d hd
  have h1 : 1 ≤ mesh.dim := by omega
  have hF1 := hfields 1 h1
  have hbase : ∀ f ∈ mesh.tags d, Inherited mesh opts f → ∃ v, (inheritSwapRule s mesh opts keys2edges keys2prods).prods f = some (f.kind, f.ncomps, v) ∧
      v.length = x.prods2new.length * f.ncomps ∧ ∀ k e p j : Nat, keys2edges[k]? = some e → InFan keys2prods k p → j < f.ncomps →
        entry v f.ncomps p j = fieldAt mesh f.name (1, e) j := by
    intro f hf hinh
    obtain ⟨ge, g1, g2, g3, g4⟩ := hinh.2 1 h1
    have hfind := findField_mem hF1.names g1
    rw [g2] at hfind
    obtain ⟨kd, k1, k2, k3⟩ := C05_unmap (s 3) keys2edges ge.data f.ncomps (nents 1) (by rw [hF1.size ge g1, g4]) hkeys
    obtain ⟨v, v1, v2, v3⟩ := C05_expand (s 4) kd keys2prods f.ncomps x.prods2new.length hfan hlast (by rw [k2, hlen]; rfl)
    refine ⟨v, ?_, v2, ?_⟩
    · unfold inheritSwapRule getField
      simp only [hfind, Option.bind_some, g3, if_true, bind]
      rw [g4, k1, Option.bind_some, v1]
      rfl
    · intro k e p j hk hp hj
      rw [v3 k p j hp hj, k3 k e j hk hj]
      unfold fieldAt
      unfold findField at hfind
      rw [hfind, Option.bind_some, g4]
  obtain ⟨t', t1, t2, t3⟩ := cavity_spec s hd hfields hx (base := inheritSwapRule s mesh opts keys2edges keys2prods)
    (point := pointwiseRule s mesh opts dist edgeOffsets edgeElems keys2edges keys2prods x) (fun _ => rfl)
    (by
      intro f hf ht
      obtain ⟨v, v1, v2, _⟩ := hbase f hf ((shouldInherit_iff hfields opts f).1 ht)
      exact ⟨v, v1, v2⟩)
    (pointwiseRule_takes s mesh opts dist edgeOffsets edgeElems keys2edges keys2prods x)
    (by intro hdim; subst hdim; exact pointwiseRule_ok s opts dist (hpick rfl) hFd) hL hS hQ hF hal ha hC ht
  refine ⟨t', by rw [transferSwap_eq s mesh opts g dist hd0]; exact t1, t2, ?_⟩
  intro f hf hch
  obtain ⟨u1, u2⟩ := t3 f hf hch
  refine ⟨?_, ?_⟩
  · intro hdim hp hdd
    subst hdim
    exact pointwiseRule_made s opts dist (hpick rfl) hFd hf (u1 rfl ⟨hp, hdd⟩)
  · intro hE
    obtain ⟨w1, w2⟩ := u2 hE
    refine ⟨?_, w2⟩
    intro hinh hrem
    obtain ⟨g', v, h1, h2, h3⟩ := w1 hinh hrem
    obtain ⟨v', v1, v2, v3⟩ := hbase f hf hinh
    rw [v1] at h2
    obtain rfl : v' = v := by simpa using h2
    exact ⟨_, ⟨g', (findField_some h1).1, h3⟩, v3⟩

/-- Swapping, on vertices: they stay the same, and every field that is carried over, and the global numbers, are copied. -/
theorem C57_copy {mesh : FieldMesh K} {opts : XferOpts} {nents : Nat → Nat} (hD : 1 ≤ mesh.dim)
    (hfields : ∀ d', d' ≤ mesh.dim → FieldsOk (nents d') (mesh.tags d'))
    {allowed : List String} (hal : allowed.length ≤ 127) (ha : ∀ f ∈ mesh.tags 0, f.name ∈ allowed) {t : List (MeshField K)} (ht : NewTags allowed t) :
    ∃ t', transferCopy mesh opts 0 (nents 0) t = some t' ∧ NewTags allowed t' ∧
      ∀ f ∈ mesh.tags 0,
        (Inherited mesh opts f ∨ Interpolated opts f ∨ MetricField mesh opts f ∨ f.name = "global" → f ∈ t') ∧
        (¬ Inherited mesh opts f → ¬ Interpolated opts f → ¬ MetricField mesh opts f → f.name ≠ "global" → Untouched t t' f.name) := by
  have hF0 := hfields 0 (by omega)
  have htk : ∀ f, shouldTransferCopy mesh opts 0 f = true ↔
      Inherited mesh opts f ∨ Interpolated opts f ∨ MetricField mesh opts f ∨ f.name = "global" := by
    intro f
    simp only [shouldTransferCopy, shouldTransferNoProducts, Bool.or_eq_true, shouldInherit_iff hfields, shouldInterpolate_iff, isMetric_iff, beq_iff_eq]
    have hne : ¬ (0 = mesh.dim) := by omega
    simp only [shouldConserve, isDensity, isMomentumVelocity, isTransferRequired, hne, decide_false, Bool.and_false, Bool.false_and,
      Bool.and_eq_true, decide_eq_true_eq, Bool.false_eq_true, or_false]
    unfold Interpolated
    tauto
  have key : ∀ (l : List (MeshField K)), (l.map MeshField.name).Nodup → (∀ f ∈ l, f ∈ mesh.tags 0) → ∀ t, NewTags allowed t →
      ∃ t', l.foldlM (fun acc f => if shouldTransferCopy mesh opts 0 f then addField (nents 0) acc f else some acc) t = some t' ∧ NewTags allowed t' ∧
        (∀ f ∈ l, shouldTransferCopy mesh opts 0 f = true → findField t' f.name = some f) ∧
        ∀ n, (∀ f ∈ l, f.name = n → shouldTransferCopy mesh opts 0 f = false) → findField t' n = findField t n := by
    intro l
    induction l with
    | nil => intro _ _ t ht; exact ⟨t, rfl, ht, by simp, fun _ _ => rfl⟩
    | cons f l ih =>
      intro hnd hl t ht
      rw [List.map_cons, List.nodup_cons] at hnd
      have hfm := hl f (by simp)
      by_cases hf : shouldTransferCopy mesh opts 0 f = true
      · obtain ⟨t1, a1, a2, a3, a4⟩ := addField_spec ht hal (nents := nents 0) (ha f hfm) (hF0.named f hfm) (hF0.comps f hfm) (hF0.size f hfm)
        obtain ⟨t2, b1, b2, b3, b4⟩ := ih hnd.2 (fun f' h => hl f' (by simp [h])) t1 a2
        refine ⟨t2, ?_, b2, ?_, ?_⟩
        · rw [List.foldlM_cons, if_pos hf]
          simp only [bind]
          rw [a1]
          exact b1
        · intro f' hf' htk
          rcases List.mem_cons.1 hf' with rfl | hf'
          · rw [b4 f'.name ?_, a3]
            intro f'' h1 h2
            exact absurd (h2 ▸ List.mem_map_of_mem h1) hnd.1
          · exact b3 f' hf' htk
        · intro n hn
          rw [b4 n (fun f' h => hn f' (by simp [h])), a4 n]
          intro h
          exact absurd hf (by rw [hn f (by simp) h.symm]; simp)
      · obtain ⟨t2, b1, b2, b3, b4⟩ := ih hnd.2 (fun f' h => hl f' (by simp [h])) t ht
        refine ⟨t2, ?_, b2, ?_, ?_⟩
        · rw [List.foldlM_cons, if_neg hf]
          exact b1
        · intro f' hf' htk
          rcases List.mem_cons.1 hf' with rfl | hf'
          · exact absurd htk hf
          · exact b3 f' hf' htk
        · intro n hn
          exact b4 n (fun f' h => hn f' (by simp [h]))
  obtain ⟨t', a1, a2, a3, a4⟩ := key (mesh.tags 0) hF0.names (fun _ h => h) t ht
  refine ⟨t', a1, a2, ?_⟩
  intro f hf
  refine ⟨fun hc => (findField_some (a3 f hf ((htk f).2 hc))).1, ?_⟩
  intro h1 h2 h3 h4
  apply a4 f.name
  intro f' hf' hnn
  have e1 := findField_mem hF0.names hf
  have e2 := findField_mem hF0.names hf'
  rw [hnn, e1] at e2
  obtain rfl := Option.some.inj e2
  apply bool_false_of (htk f)
  rintro (q | q | q | q)
  · exact h1 q
  · exact h2 q
  · exact h3 q
  · exact h4 q

end
end OmegaH
