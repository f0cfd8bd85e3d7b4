import Verif.Lemmas.Transfer
import Mathlib.Tactic.Ring
import Mathlib.Tactic.Tauto
/-!
# C57: refinement carries every field over

A field that the user asks for, or that the library keeps itself, is on the refined mesh: entities that stay keep
their values, an entity that comes from splitting an edge has the value of the old entity inside which it lies, a
midpoint has the average of the ends for a field that is interpolated, and lengths, sizes, qualities and metrics are
those of the new entities.
-/
namespace OmegaH
open OmegaH.Spec

section
variable {K : Type}

theorem lastTaking_nil (f : MeshField K) : lastTaking [] f = none := rfl

theorem lastTaking_append (a b : List (XferRule K)) (f : MeshField K) : lastTaking (a ++ b) f = (lastTaking b f).or (lastTaking a f) := by
  unfold lastTaking
  rw [List.reverse_append, List.find?_append]

theorem lastTaking_cons (r : XferRule K) (rs : List (XferRule K)) (f : MeshField K) :
    lastTaking (r :: rs) f = (lastTaking rs f).or (if r.takes f = true then some r else none) := by
  rw [show r :: rs = [r] ++ rs from rfl, lastTaking_append]
  congr 1
  unfold lastTaking
  rw [List.reverse_singleton, List.find?_cons]
  cases r.takes f <;> rfl

theorem runRules_append (s : Nat → Sched) (old : List (MeshField K)) (x : XferMaps) (a b : List (XferRule K)) (t : List (MeshField K)) :
    runRules s old x (a ++ b) t = (runRules s old x a t).bind (fun t => runRules s old x b t) := by
  unfold runRules
  rw [List.foldlM_append]
  rfl

theorem runRules_one (s : Nat → Sched) (old : List (MeshField K)) (x : XferMaps) (r : XferRule K) (t : List (MeshField K)) :
    runRules s old x [r] t = runRule s old x r t := by
  unfold runRules
  simp

theorem shouldInherit_iff {mesh : FieldMesh K} {nents : Nat → Nat} (h : ∀ d, d ≤ mesh.dim → FieldsOk (nents d) (mesh.tags d))
    (opts : XferOpts) (f : MeshField K) : shouldInherit mesh opts f = true ↔ Inherited mesh opts f := by
  unfold shouldInherit Inherited isTransferRequired
  rw [Bool.and_eq_true, List.all_eq_true]
  simp only [Bool.or_eq_true, decide_eq_true_eq, beq_iff_eq, or_assoc, List.mem_range]
  apply and_congr Iff.rfl
  constructor
  · intro q d hd
    have := q d (by omega)
    cases hc : findField (mesh.tags d) f.name with
    | none => rw [hc] at this; exact absurd this (by simp)
    | some g =>
      rw [hc] at this
      obtain ⟨g1, g2⟩ := findField_some hc
      simp only [Bool.and_eq_true, decide_eq_true_eq] at this
      exact ⟨g, g1, g2, this.1, this.2⟩
  · intro q d hd
    obtain ⟨g, g1, g2, g3, g4⟩ := q d (by omega)
    have := findField_mem (h d (by omega)).names g1
    rw [g2] at this
    rw [this]
    simp [g3, g4]

theorem shouldInterpolate_iff (opts : XferOpts) (f : MeshField K) : shouldInterpolate opts 0 f = true ↔ Interpolated opts f := by
  unfold shouldInterpolate Interpolated isTransferRequired
  simp only [Bool.and_eq_true, Bool.or_eq_true, decide_eq_true_eq, beq_iff_eq, or_assoc, and_true]

theorem isMetric_iff (mesh : FieldMesh K) (opts : XferOpts) (f : MeshField K) : isMetric mesh.dim opts 0 f = true ↔ MetricField mesh opts f := by
  unfold isMetric MetricField isTransferRequired symmTagComps
  simp only [Bool.and_eq_true, Bool.or_eq_true, decide_eq_true_eq, beq_iff_eq, or_assoc, and_true, and_assoc, Nat.mul_comm (mesh.dim + 1) mesh.dim]

theorem shouldFit_iff (mesh : FieldMesh K) (opts : XferOpts) (f : MeshField K) :
    shouldFit mesh.dim opts mesh.dim f = true ↔ PointwiseField opts f := by
  unfold shouldFit PointwiseField isTransferRequired
  simp only [Bool.and_eq_true, decide_eq_true_eq, and_true]

theorem shouldTransferDensity_iff (mesh : FieldMesh K) (opts : XferOpts) (f : MeshField K) :
    shouldTransferDensity mesh.dim opts mesh.dim f = true ↔ DensityField opts f := by
  unfold shouldTransferDensity shouldConserve isDensity DensityField isTransferRequired
  simp only [Bool.and_eq_true, Bool.or_eq_true, decide_eq_true_eq, and_true]
  tauto

theorem measured_iff (name : String) (m : List Nat → Option (List K)) (x : XferMaps) (f : MeshField K) :
    (measureRule name m x).takes f = true ↔ Measured name f := by
  unfold measureRule Measured
  simp only [Bool.and_eq_true, decide_eq_true_eq, beq_iff_eq, and_assoc]

theorem measureRule_ok (oldTags : List (MeshField K)) (name : String) {m : List Nat → Option (List K)} {value : Nat → K} {x : XferMaps}
    (hm : MeasureOk x.nnew m value) (hp : InRange x.prods2new x.nnew) : RuleOk oldTags x (measureRule name m x) := by
  intro f _ ht
  rw [measured_iff] at ht
  refine ⟨x.prods2new.map (fun n => FieldVal.real (value n)), ?_, by rw [List.length_map, ht.2.2, Nat.mul_one]⟩
  unfold measureRule
  simp only [hm _ hp, Option.map_some, List.map_map]
  rw [ht.2.1]
  rfl

theorem measureRule_made {name : String} {m : List Nat → Option (List K)} {value : Nat → K} {x : XferMaps} {f : MeshField K} {t : List (MeshField K)}
    (hm : MeasureOk x.nnew m value) (hp : InRange x.prods2new x.nnew) (hf : Measured name f)
    (h : MadeBy x (measureRule name m x) f (findField t f.name)) :
    CarriedTo t x f (fun p _ => (x.prods2new[p]?).map (fun n => .real (value n))) := by
  obtain ⟨g, v, h1, h2, h3⟩ := h
  refine ⟨g, (findField_some h1).1, ⟨h3.name, h3.kind, h3.ncomps, h3.size, h3.same, ?_⟩⟩
  intro p n j hpn hj
  rw [h3.prods p n j hpn hj]
  unfold measureRule at h2
  simp only [hm _ hp, Option.map_some, List.map_map, Option.some.injEq, Prod.mk.injEq] at h2
  rw [← h2.2.2]
  rw [hf.2.2] at hj ⊢
  obtain rfl : j = 0 := by omega
  unfold entry
  rw [Nat.mul_one, Nat.add_zero, List.getElem?_map, hpn]
  rfl

theorem faceFluxRule_ok [Zero K] {mesh : FieldMesh K} {n : Nat} (h : FieldsOk n (mesh.tags 2)) (hf : FluxOk mesh) (x : XferMaps) :
    RuleOk (mesh.tags 2) x (faceFluxRule mesh x) := by
  intro f hfm ht
  have hn : f.name = "magnetic face flux" := by simpa [faceFluxRule] using ht
  obtain ⟨k1, k2⟩ := hf f hfm hn
  refine ⟨List.replicate x.prods2new.length (.real 0), ?_, by rw [List.length_replicate, k2, Nat.mul_one]⟩
  unfold faceFluxRule getField
  simp only [findField_mem h.names hfm, Option.bind_some, k1, if_true, Option.map_some]

theorem faceFluxRule_made [Zero K] {mesh : FieldMesh K} {x : XferMaps} {f : MeshField K} {t : List (MeshField K)} (hc : f.ncomps = 1)
    (h : MadeBy x (faceFluxRule mesh x) f (findField t f.name)) : CarriedTo t x f (fun _ _ => some (.real 0)) := by
  obtain ⟨g, v, h1, h2, h3⟩ := h
  refine ⟨g, (findField_some h1).1, ⟨h3.name, h3.kind, h3.ncomps, h3.size, h3.same, ?_⟩⟩
  intro p n j hpn hj
  rw [h3.prods p n j hpn hj]
  unfold faceFluxRule at h2
  cases hg : getField (mesh.tags 2) f.name .f64 with
  | none => simp [hg] at h2
  | some q =>
    simp only [hg, Option.map_some, Option.some.injEq, Prod.mk.injEq] at h2
    rw [← h2.2.2, hc]
    rw [hc] at hj
    obtain rfl : j = 0 := by omega
    unfold entry
    rw [Nat.mul_one, Nat.add_zero, List.getElem?_replicate, if_pos (List.getElem?_eq_some_iff.1 hpn).1]

theorem placeRule_made {s : Nat → Sched} {mesh : FieldMesh K} {nents : Nat → Nat} {d : Nat} {keys2edges keys2prods : List Nat}
    {x : XferMaps} {R : Nat → Nat → List Nat} (h : SplitInput mesh nents d keys2edges keys2prods x R) (hd : d ≤ mesh.dim) {f : MeshField K}
    (hf : f ∈ mesh.tags d) (hup : d < mesh.dim → ∃ g ∈ mesh.tags (d + 1), g.name = f.name ∧ g.kind = f.kind ∧ g.ncomps = f.ncomps)
    {t : List (MeshField K)} {r : XferRule K} (hr : r.prods f = inheritRefineProds s mesh d keys2edges keys2prods f.name f.kind)
    (hm : MadeBy x r f (findField t f.name)) :
    CarriedTo t x f (fun p j => ((keys2edges.flatMap (fun e => splitSources mesh.dim d (R e)))[p]?).bind (fun src => fieldAt mesh f.name src j)) := by
  obtain ⟨g, v, h1, h2, h3⟩ := hm
  obtain ⟨v', a1, a2, a3⟩ := inheritRefineProds_spec s h hd hf hup
  rw [hr, a1] at h2
  obtain rfl : v' = v := by simpa using h2
  refine ⟨g, (findField_some h1).1, ⟨h3.name, h3.kind, h3.ncomps, h3.size, h3.same, ?_⟩⟩
  intro p n j hpn hj
  rw [h3.prods p n j hpn hj, a3 p j hj]

theorem fieldReals_eq {n : Nat} {tags : List (MeshField K)} (h : FieldsOk n tags) {f : MeshField K} (hf : f ∈ tags) (hk : f.kind = .f64) :
    ∃ l : List K, fieldReals f = some l ∧ f.data = l.map .real := by
  have := h.reals f hf hk
  unfold fieldReals
  generalize f.data = data at this
  induction data with
  | nil => exact ⟨[], rfl, rfl⟩
  | cons v data ih =>
    obtain ⟨l, l1, l2⟩ := ih (fun w hw => this w (by simp [hw]))
    obtain ⟨u, rfl⟩ := this v (by simp)
    exact ⟨u :: l, by rw [List.mapM_cons, l1]; rfl, by rw [l2]; rfl⟩

end

section
variable {K : Type} [Field K]

/-- The averages over the ends of the split edges. -/
theorem averageChosen_spec (s : Sched) {w : Nat} (hw : 0 < w) {nv : Nat} {ev2v keys : List Nat} {data : List K} (hl : data.length = nv * w)
    (he : ∀ e ∈ keys, ∃ a b, ev2v[e * 2]? = some a ∧ ev2v[e * 2 + 1]? = some b ∧ a < nv ∧ b < nv) :
    ∃ out, averageChosen s w 2 ev2v keys data = some out ∧ out.length = keys.length * w ∧
      ∀ k e a b u v j, keys[k]? = some e → ev2v[e * 2]? = some a → ev2v[e * 2 + 1]? = some b → j < w →
        entry data w a j = some u → entry data w b j = some v → entry out w k j = some ((u + v) / 2) := by
  have hval : ∀ e ∈ keys, ∃ l : List K, l.length = w ∧ ((List.range w).mapM (fun j =>
      ((List.range 2).foldlM (fun comp k =>
          (ev2v[e * 2 + k]?).bind (fun v => (data[v * w + j]?).map (fun x => comp + x))) (0 : K)).map
        (fun comp => comp / ((2 : Nat) : K)))) = some l ∧
      ∀ a b u v j, ev2v[e * 2]? = some a → ev2v[e * 2 + 1]? = some b → j < w →
        entry data w a j = some u → entry data w b j = some v → l[j]? = some ((u + v) / 2) := by
    intro e hek
    obtain ⟨a, b, e1, e2, e3, e4⟩ := he e hek
    refine ⟨(List.range w).map (fun j => ((data[a * w + j]?).getD 0 + (data[b * w + j]?).getD 0) / 2), by simp, ?_, ?_⟩
    · rw [mapM_range_some w _ (fun j => ((data[a * w + j]?).getD 0 + (data[b * w + j]?).getD 0) / 2)]
      intro j hj
      have la : a * w + j < data.length := by rw [hl]; exact row_lt e3 hj
      have lb : b * w + j < data.length := by rw [hl]; exact row_lt e4 hj
      simp [List.range, List.range.loop, e1, e2, List.getElem?_eq_getElem la, List.getElem?_eq_getElem lb]
    · intro a' b' u v j h1 h2 hj hu hv
      rw [e1] at h1; obtain rfl := Option.some.inj h1
      rw [e2] at h2; obtain rfl := Option.some.inj h2
      unfold entry at hu hv
      rw [List.getElem?_map, List.getElem?_range hj, Option.map_some, hu, hv]
      rfl
  obtain ⟨G, hG⟩ : ∃ G : Nat → List K, ∀ e ∈ keys, (G e).length = w ∧ ((List.range w).mapM (fun j =>
      ((List.range 2).foldlM (fun comp k =>
          (ev2v[e * 2 + k]?).bind (fun v => (data[v * w + j]?).map (fun x => comp + x))) (0 : K)).map
        (fun comp => comp / ((2 : Nat) : K)))) = some (G e) ∧
      ∀ a b u v j, ev2v[e * 2]? = some a → ev2v[e * 2 + 1]? = some b → j < w →
        entry data w a j = some u → entry data w b j = some v → (G e)[j]? = some ((u + v) / 2) := by
    classical
    refine ⟨fun e => if h : e ∈ keys then Classical.choose (hval e h) else [], fun e h => ?_⟩
    simp only [dif_pos h]
    exact Classical.choose_spec (hval e h)
  obtain ⟨E, hE⟩ : ∃ E : Nat → Nat, ∀ k, k < keys.length → keys[k]? = some (E k) ∧ E k ∈ keys :=
    ⟨fun k => keys[k]?.getD 0, fun k hk => by simp [List.getElem?_eq_getElem hk]⟩
  have hoff : ∀ k, k ≤ keys.length → blockOff (fun k => G (E k)) k = k * w := by
    intro k
    induction k with
    | zero => intro _; simp [blockOff]
    | succ k ih =>
      intro hk
      rw [blockOff_succ, ih (by omega), (hG _ (hE k (by omega)).2).1, Nat.add_mul, Nat.one_mul]
  have := parConcat s keys.length (fun k => G (E k)) (fun a => (keys[a]?).bind (fun e => ((List.range w).mapM (fun j =>
      ((List.range 2).foldlM (fun comp k =>
          (ev2v[e * 2 + k]?).bind (fun v => (data[v * w + j]?).map (fun x => comp + x))) (0 : K)).map
        (fun comp => comp / ((2 : Nat) : K)))).map (fun l => blockWrites (a * w) l))) (by
    intro k hk
    rw [(hE k hk).1, Option.bind_some, (hG _ (hE k hk).2).2.1, hoff k (by omega)]
    rfl)
  rw [hoff keys.length (Nat.le_refl _)] at this
  refine ⟨(List.range keys.length).flatMap (fun k => G (E k)), ?_, ?_, ?_⟩
  · unfold averageChosen
    rw [if_neg (by omega), if_neg (by rw [hl, Nat.mul_mod_left]; simp)]
    exact this
  · rw [blocks_length, hoff _ (Nat.le_refl _)]
  · intro k e a b u v j hk h1 h2 hj hu hv
    have hkl := (List.getElem?_eq_some_iff.1 hk).1
    have hEk := (hE k hkl).1
    rw [hk] at hEk
    obtain rfl := Option.some.inj hEk
    have := blocks_get (fun k => G (E k)) hkl (j := j) (by rw [(hG _ (hE k hkl).2).1]; exact hj)
    rw [hoff k (by omega)] at this
    unfold entry
    rw [this]
    exact (hG _ (hE k hkl).2).2.2 a b u v j h1 h2 hj hu hv

theorem interpRule_ok (s : Nat → Sched) {mesh : FieldMesh K} (opts : XferOpts) {nents : Nat → Nat} {keys2edges keys2prods : List Nat} {x : XferMaps}
    {R : Nat → Nat → List Nat} (h : SplitInput mesh nents 0 keys2edges keys2prods x R) (hcount : x.prods2new.length = keys2edges.length)
    {f : MeshField K} (hf : f ∈ mesh.tags 0) (hi : Interpolated opts f) (hw : 0 < f.ncomps) :
    ∃ v, (interpRule s mesh opts keys2edges).prods f = some (f.kind, f.ncomps, v) ∧ v.length = x.prods2new.length * f.ncomps ∧
      ∀ k e j : Nat, keys2edges[k]? = some e → j < f.ncomps → entry v f.ncomps k j = endsAverage mesh.edgeVerts f e j := by
  have hF := h.fields 0 (Nat.zero_le _)
  obtain ⟨l, l1, l2⟩ := fieldReals_eq hF hf hi.2
  have hll : l.length = nents 0 * f.ncomps := by
    have := hF.size f hf
    rw [l2, List.length_map] at this
    exact this
  obtain ⟨out, o1, o2, o3⟩ := averageChosen_spec (s 5) hw (data := l) hll h.ends
  refine ⟨out.map .real, ?_, by rw [List.length_map, o2, hcount], ?_⟩
  · unfold interpRule getField
    simp only [findField_mem hF.names hf, Option.bind_some, hi.2, if_true, bind]
    rw [l1, Option.bind_some, o1]
    rfl
  · intro k e j hk hj
    obtain ⟨a, b, e1, e2, e3, e4⟩ := h.ends e (List.mem_of_getElem? hk)
    have la : a * f.ncomps + j < l.length := by rw [hll]; exact row_lt e3 hj
    have lb : b * f.ncomps + j < l.length := by rw [hll]; exact row_lt e4 hj
    have := o3 k e a b _ _ j hk e1 e2 hj (List.getElem?_eq_getElem la) (List.getElem?_eq_getElem lb)
    unfold endsAverage
    unfold entry at this ⊢
    rw [List.getElem?_map, this, e1, e2, l2]
    simp [List.getElem?_eq_getElem la, List.getElem?_eq_getElem lb, FieldVal.real?]

/-- The loops of a refinement, up to the step that deals with conservation. -/
def refineRules (s : Nat → Sched) (mesh : FieldMesh K) (opts : XferOpts) (g : XferShapes K) (d : Nat) (keys2edges keys2prods : List Nat)
    (x : XferMaps) : List (XferRule K) :=
  [inheritRefineRule s mesh opts d keys2edges keys2prods] ++
  ((if d = 0 then [interpRule s mesh opts keys2edges, metricRule mesh opts g.midMetric] else []) ++
  ((if d = 1 then [measureRule "length" g.length x] else if d = 2 then [faceFluxRule mesh x] else []) ++
  (if d = mesh.dim then [measureRule "size" g.size x, measureRule "quality" g.quality x, densityRefineRule s mesh opts keys2edges keys2prods] else [])))

theorem transferRefine_eq (s : Nat → Sched) (mesh : FieldMesh K) (opts : XferOpts) (g : XferShapes K) (d : Nat) (keys2edges keys2prods : List Nat)
    (x : XferMaps) (t : List (MeshField K)) :
    transferRefine s mesh opts g d keys2edges keys2prods x t =
      (runRules s (mesh.tags d) x (refineRules s mesh opts g d keys2edges keys2prods x) t).bind (fun t =>
        if d = mesh.dim then (g.conserve t).bind (fun t => runRules s (mesh.tags d) x [pointwiseRefineRule s mesh opts keys2edges keys2prods] t)
        else some t) := by
  unfold transferRefine refineRules
  simp only [runRules_append, bind, runRules_one, Option.bind_assoc]
  congr 1
  funext t1
  have hnil : ∀ t, runRules s (mesh.tags d) x [] t = some t := fun _ => rfl
  have hbind : ∀ (t : List (MeshField K)) (F : List (MeshField K) → Option (List (MeshField K))), (pure t : Option _).bind F = F t := fun _ _ => rfl
  simp only [← Bool.cond_decide]
  generalize decide (d = 0) = b0
  generalize decide (d = 1) = b1
  generalize decide (d = 2) = b2
  generalize decide (d = mesh.dim) = b3
  cases b0 <;> cases b1 <;> cases b2 <;> cases b3 <;>
    simp only [cond_true, cond_false, hnil, hbind, Option.bind_some, runRules_one] <;> rfl

theorem bool_false_of {b : Bool} {P : Prop} (h : b = true ↔ P) (hn : ¬ P) : b = false := by
  cases b with
  | false => rfl
  | true => exact absurd (h.1 rfl) hn

omit [Field K] in
/-- Fields of the elements that are carried over as densities or pointwise. -/
theorem density_not_pointwise {opts : XferOpts} {f : MeshField K} (h : DensityField opts f) : ¬ PointwiseField opts f := by
  rintro ⟨h1, _⟩
  rcases h.1 with h2 | h2 <;> rw [h1] at h2 <;> exact absurd h2 (by decide)

omit [Field K] in
theorem refine_count {mesh : FieldMesh K} {nents : Nat → Nat} {keys2edges keys2prods : List Nat} {x : XferMaps} {R : Nat → Nat → List Nat}
    (h : SplitInput mesh nents 0 keys2edges keys2prods x R) (hD : 1 ≤ mesh.dim) : x.prods2new.length = keys2edges.length := by
  rw [h.count]
  have := h.itself
  clear h
  induction keys2edges with
  | nil => rfl
  | cons e l ih =>
    rw [List.flatMap_cons, List.length_append, ih (fun e' he => this e' (by simp [he]))]
    unfold splitSources
    rw [if_neg (by omega), if_pos (by omega), Nat.zero_add, this e (by simp)]
    simp
    omega

theorem C57_refine_partial (s : Nat → Sched) {mesh : FieldMesh K} {opts : XferOpts} {g : XferShapes K} {nents : Nat → Nat} {d : Nat}
    {keys2edges keys2prods : List Nat} {x : XferMaps} {R : Nat → Nat → List Nat} (h : SplitInput mesh nents d keys2edges keys2prods x R)
    (hd : d ≤ mesh.dim) (hD : 1 ≤ mesh.dim) {L S Q : Nat → K} (hL : d = 1 → MeasureOk x.nnew g.length L)
    (hS : d = mesh.dim → MeasureOk x.nnew g.size S) (hQ : d = mesh.dim → MeasureOk x.nnew g.quality Q)
    (hM : ∀ f ∈ mesh.tags 0, MetricField mesh opts f → ∀ r, f.data = r.map .real →
      ∃ l, g.midMetric r = some l ∧ l.length = keys2edges.length * f.ncomps)
    (hI : ∀ f ∈ mesh.tags 0, Interpolated opts f → 0 < f.ncomps) (hF : d = 2 → FluxOk mesh)
    {allowed changed : List String} (hal : allowed.length ≤ 127) (ha : ∀ f ∈ mesh.tags d, f.name ∈ allowed)
    (hC : d = mesh.dim → ChangesOnly changed allowed g.conserve) {t : List (MeshField K)} (ht : NewTags allowed t) :
    ∃ t', transferRefine s mesh opts g d keys2edges keys2prods x t = some t' ∧ NewTags allowed t' ∧
      ∀ f ∈ mesh.tags d, (d = mesh.dim → f.name ∉ changed) →
        ((d = mesh.dim ∧ (DensityField opts f ∨ PointwiseField opts f)) ∨
            (Inherited mesh opts f ∧ ¬ Remade mesh.dim d f ∧ ¬ (d = 0 ∧ (Interpolated opts f ∨ MetricField mesh opts f))) →
          CarriedTo t' x f (fun p j =>
            ((keys2edges.flatMap (fun e => splitSources mesh.dim d (R e)))[p]?).bind (fun src => fieldAt mesh f.name src j))) ∧
        (d = 0 → Interpolated opts f → ¬ MetricField mesh opts f →
          CarriedTo t' x f (fun p j => (keys2edges[p]?).bind (fun e => endsAverage mesh.edgeVerts f e j))) ∧
        (d = 0 → MetricField mesh opts f → ∃ r l, f.data = r.map .real ∧ g.midMetric r = some l ∧
          CarriedTo t' x f (fun p j => (entry l f.ncomps p j).map .real)) ∧
        (¬ (d = mesh.dim ∧ (DensityField opts f ∨ PointwiseField opts f)) →
          (d = 1 → Measured "length" f → CarriedTo t' x f (fun p _ => (x.prods2new[p]?).map (fun n => .real (L n)))) ∧
          (d = 2 → f.name = "magnetic face flux" → CarriedTo t' x f (fun _ _ => some (.real 0))) ∧
          (d = mesh.dim → Measured "size" f → CarriedTo t' x f (fun p _ => (x.prods2new[p]?).map (fun n => .real (S n)))) ∧
          (d = mesh.dim → Measured "quality" f → CarriedTo t' x f (fun p _ => (x.prods2new[p]?).map (fun n => .real (Q n)))) ∧
          (¬ Inherited mesh opts f → ¬ Remade mesh.dim d f → ¬ (d = 0 ∧ (Interpolated opts f ∨ MetricField mesh opts f)) →
            Untouched t t' f.name)) := by
  have hFd := h.fields d hd
  obtain ⟨_, hpr, _⟩ := numbering_parts h.numbering
  have iInh := shouldInherit_iff h.fields opts
  have hupI : ∀ f, Inherited mesh opts f → d < mesh.dim → ∃ g ∈ mesh.tags (d + 1), g.name = f.name ∧ g.kind = f.kind ∧ g.ncomps = f.ncomps :=
    fun f hf hlt => hf.2 (d + 1) hlt
  have hok : ∀ r ∈ refineRules s mesh opts g d keys2edges keys2prods x, RuleOk (mesh.tags d) x r := by
    intro r hr
    unfold refineRules at hr
    rw [List.mem_append, List.mem_append, List.mem_append] at hr
    rcases hr with hr | hr | hr | hr
    · rw [List.mem_singleton] at hr
      subst hr
      intro f hf htk
      obtain ⟨v, v1, v2, _⟩ := inheritRefineProds_spec s h hd hf (hupI f ((iInh f).1 htk))
      exact ⟨v, v1, v2⟩
    · split at hr
      · rename_i h0
        subst h0
        have hcount := refine_count h hD
        rcases List.mem_cons.1 hr with rfl | hr
        · intro f hf htk
          have hi := (shouldInterpolate_iff opts f).1 htk
          obtain ⟨v, v1, v2, _⟩ := interpRule_ok s opts h hcount hf hi (hI f hf hi)
          exact ⟨v, v1, v2⟩
        · rw [List.mem_singleton] at hr
          subst hr
          intro f hf htk
          have hi := (isMetric_iff mesh opts f).1 htk
          obtain ⟨r, r1, r2⟩ := fieldReals_eq hFd hf hi.2.1
          obtain ⟨l, l1, l2⟩ := hM f hf hi r r2
          refine ⟨l.map .real, ?_, by rw [List.length_map, l2, hcount]⟩
          unfold metricRule getField
          simp only [findField_mem hFd.names hf, Option.bind_some, hi.2.1, if_true, bind, r1, l1, pure]
      · simp at hr
    · split at hr
      · rename_i h1
        rw [List.mem_singleton] at hr
        subst hr
        exact measureRule_ok _ _ (hL h1) hpr
      · split at hr
        · rename_i h2
          rw [List.mem_singleton] at hr
          subst hr
          subst h2
          exact faceFluxRule_ok hFd (hF rfl) x
        · simp at hr
    · split at hr
      · rename_i hdim
        simp only [List.mem_cons, List.not_mem_nil, or_false] at hr
        rcases hr with rfl | rfl | rfl
        · exact measureRule_ok _ _ (hS hdim) hpr
        · exact measureRule_ok _ _ (hQ hdim) hpr
        · subst hdim
          intro f hf _
          obtain ⟨v, v1, v2, _⟩ := inheritRefineProds_spec s h hd hf (fun hlt => absurd hlt (Nat.lt_irrefl _))
          exact ⟨v, v1, v2⟩
      · simp at hr
  obtain ⟨t1, a1, a2, a3, a4⟩ := runRules_spec s hFd h.numbering _ hok hal ha ht
  -- which loop serves a field last
  have hlast : ∀ f, lastTaking (refineRules s mesh opts g d keys2edges keys2prods x) f =
      (if d = mesh.dim then
        (if shouldTransferDensity mesh.dim opts mesh.dim f = true then some (densityRefineRule s mesh opts keys2edges keys2prods) else
          if (measureRule "quality" g.quality x).takes f = true then some (measureRule "quality" g.quality x) else
          if (measureRule "size" g.size x).takes f = true then some (measureRule "size" g.size x) else none) else none).or
      ((if d = 1 then (if (measureRule "length" g.length x).takes f = true then some (measureRule "length" g.length x) else none)
        else if d = 2 then (if (faceFluxRule mesh x).takes f = true then some (faceFluxRule mesh x) else none) else none).or
      ((if d = 0 then (if isMetric mesh.dim opts 0 f = true then some (metricRule mesh opts g.midMetric) else
          if shouldInterpolate opts 0 f = true then some (interpRule s mesh opts keys2edges) else none) else none).or
      (if shouldInherit mesh opts f = true then some (inheritRefineRule s mesh opts d keys2edges keys2prods) else none))) := by
    intro f
    have e1 : (densityRefineRule s mesh opts keys2edges keys2prods).takes f = shouldTransferDensity mesh.dim opts mesh.dim f := rfl
    have e2 : (metricRule mesh opts g.midMetric).takes f = isMetric mesh.dim opts 0 f := rfl
    have e3 : (interpRule s mesh opts keys2edges).takes f = shouldInterpolate opts 0 f := rfl
    have e4 : (inheritRefineRule s mesh opts d keys2edges keys2prods).takes f = shouldInherit mesh opts f := rfl
    unfold refineRules
    rw [lastTaking_append, lastTaking_append, lastTaking_append, ← e1, ← e2, ← e3, ← e4, lastTaking_cons, lastTaking_nil, Option.none_or,
      Option.or_assoc, Option.or_assoc]
    congr 1
    · split
      · rw [lastTaking_cons, lastTaking_cons, lastTaking_cons, lastTaking_nil, Option.none_or]
        split
        · rfl
        · rw [Option.none_or]
          split
          · rfl
          · rw [Option.none_or]
      · rfl
    · congr 1
      · split
        · rw [lastTaking_cons, lastTaking_nil, Option.none_or]
        · split
          · rw [lastTaking_cons, lastTaking_nil, Option.none_or]
          · rfl
      · congr 1
        split
        · rw [lastTaking_cons, lastTaking_cons, lastTaking_nil, Option.none_or]
          split
          · rfl
          · rw [Option.none_or]
        · rfl
  -- the steps after the loops
  obtain ⟨t', b1, b2, b3, b4⟩ : ∃ t', (if d = mesh.dim then (g.conserve t1).bind
        (fun t => runRules s (mesh.tags d) x [pointwiseRefineRule s mesh opts keys2edges keys2prods] t) else some t1) = some t' ∧
      NewTags allowed t' ∧
      (∀ f ∈ mesh.tags d, d = mesh.dim → PointwiseField opts f →
        MadeBy x (pointwiseRefineRule s mesh opts keys2edges keys2prods) f (findField t' f.name)) ∧
      ∀ f ∈ mesh.tags d, (d = mesh.dim → f.name ∉ changed ∧ ¬ PointwiseField opts f) → findField t' f.name = findField t1 f.name := by
    by_cases hdim : d = mesh.dim
    · obtain ⟨t2, c1, c2, c3⟩ := hC hdim t1 a2
      obtain ⟨t3, q1, q2, q3, q4⟩ := runRules_spec s hFd h.numbering [pointwiseRefineRule s mesh opts keys2edges keys2prods] (by
        intro r hr
        rw [List.mem_singleton] at hr
        subst hr
        intro f hf _
        subst hdim
        obtain ⟨v, v1, v2, _⟩ := inheritRefineProds_spec s h hd hf (fun hlt => absurd hlt (Nat.lt_irrefl _))
        exact ⟨v, v1, v2⟩) hal ha c2
      have hl : ∀ f, lastTaking [pointwiseRefineRule s mesh opts keys2edges keys2prods] f =
          if shouldFit mesh.dim opts mesh.dim f = true then some (pointwiseRefineRule s mesh opts keys2edges keys2prods) else none := by
        intro f
        rw [lastTaking_cons, lastTaking_nil, Option.none_or]
        rfl
      refine ⟨t3, by rw [if_pos hdim, c1]; exact q1, q2, ?_, ?_⟩
      · intro f hf _ hp
        apply q3 f hf
        rw [hl, if_pos ((shouldFit_iff mesh opts f).2 hp)]
      · intro f hf hn
        rw [q4 f.name (by
          intro f' hf' hnn
          have h1 := findField_mem hFd.names hf
          have h2 := findField_mem hFd.names hf'
          rw [hnn, h1] at h2
          obtain rfl := Option.some.inj h2
          rw [hl, if_neg]
          exact fun hp => (hn hdim).2 ((shouldFit_iff mesh opts f).1 hp))]
        exact c3 f.name (hn hdim).1
    · refine ⟨t1, by rw [if_neg hdim], a2, fun _ _ hh => absurd hh hdim, fun _ _ _ => rfl⟩
  refine ⟨t', by rw [transferRefine_eq, a1]; exact b1, b2, ?_⟩
  intro f hf hch
  have made : ∀ r, ¬ (d = mesh.dim ∧ PointwiseField opts f) → lastTaking (refineRules s mesh opts g d keys2edges keys2prods x) f = some r →
      MadeBy x r f (findField t' f.name) := by
    intro r hnp hr
    rw [b4 f hf (fun hdim => ⟨hch hdim, fun hp => hnp ⟨hdim, hp⟩⟩)]
    exact a3 f hf r hr
  have dens := shouldTransferDensity_iff mesh opts f
  have iInt := shouldInterpolate_iff opts f
  have iMet := isMetric_iff mesh opts f
  have iLen := measured_iff "length" g.length x f
  have iSiz := measured_iff "size" g.size x f
  have iQua := measured_iff "quality" g.quality x f
  have iFlx : (faceFluxRule mesh x).takes f = true ↔ f.name = "magnetic face flux" := by simp [faceFluxRule]
  have hname : ∀ {a b : String}, a ≠ b → Measured a f → ¬ Measured b f := fun hab h1 h2 => hab (h1.1.symm.trans h2.1)
  refine ⟨?_, ?_, ?_, ?_⟩
  · rintro (⟨hdim, hE⟩ | ⟨hinh, hrem, hz⟩)
    · have hup : d < mesh.dim → ∃ g ∈ mesh.tags (d + 1), g.name = f.name ∧ g.kind = f.kind ∧ g.ncomps = f.ncomps := fun hlt => by omega
      by_cases hp : PointwiseField opts f
      · exact placeRule_made (s := s) h hd hf hup (by subst hdim; rfl) (b3 f hf hdim hp)
      · have hden := hE.resolve_right hp
        refine placeRule_made (s := s) h hd hf hup (r := densityRefineRule s mesh opts keys2edges keys2prods) (by subst hdim; rfl) (made _ (fun q => hp q.2) ?_)
        rw [hlast, if_pos hdim, if_pos (dens.2 hden)]
        rfl
    · by_cases hE : d = mesh.dim ∧ (DensityField opts f ∨ PointwiseField opts f)
      · obtain ⟨hdim, hE⟩ := hE
        have hup : d < mesh.dim → ∃ g ∈ mesh.tags (d + 1), g.name = f.name ∧ g.kind = f.kind ∧ g.ncomps = f.ncomps := fun hlt => by omega
        by_cases hp : PointwiseField opts f
        · exact placeRule_made (s := s) h hd hf hup (by subst hdim; rfl) (b3 f hf hdim hp)
        · have hden := hE.resolve_right hp
          refine placeRule_made (s := s) h hd hf hup (r := densityRefineRule s mesh opts keys2edges keys2prods) (by subst hdim; rfl) (made _ (fun q => hp q.2) ?_)
          rw [hlast, if_pos hdim, if_pos (dens.2 hden)]
          rfl
      · refine placeRule_made (s := s) h hd hf (hupI f hinh) (r := inheritRefineRule s mesh opts d keys2edges keys2prods) rfl
          (made _ (fun q => hE ⟨q.1, Or.inr q.2⟩) ?_)
        rw [hlast, if_pos ((iInh f).2 hinh)]
        unfold Remade at hrem
        rw [show (if d = mesh.dim then
          (if shouldTransferDensity mesh.dim opts mesh.dim f = true then some (densityRefineRule s mesh opts keys2edges keys2prods) else
          if (measureRule "quality" g.quality x).takes f = true then some (measureRule "quality" g.quality x) else
          if (measureRule "size" g.size x).takes f = true then some (measureRule "size" g.size x) else none) else none) = none by
            split
            · rename_i hdim
              rw [if_neg (fun q => hE ⟨hdim, Or.inl (dens.1 q)⟩), if_neg (fun q => hrem (Or.inr (Or.inr ⟨hdim, Or.inr (iQua.1 q)⟩))),
                if_neg (fun q => hrem (Or.inr (Or.inr ⟨hdim, Or.inl (iSiz.1 q)⟩)))]
            · rfl, Option.none_or]
        rw [show (if d = 1 then (if (measureRule "length" g.length x).takes f = true then some (measureRule "length" g.length x) else none)
          else if d = 2 then (if (faceFluxRule mesh x).takes f = true then some (faceFluxRule mesh x) else none) else none) = none by
            split
            · rename_i h1
              rw [if_neg (fun q => hrem (Or.inl ⟨h1, iLen.1 q⟩))]
            · split
              · rename_i h2
                rw [if_neg (fun q => hrem (Or.inr (Or.inl ⟨h2, iFlx.1 q⟩)))]
              · rfl, Option.none_or]
        rw [show (if d = 0 then (if isMetric mesh.dim opts 0 f = true then some (metricRule mesh opts g.midMetric) else
          if shouldInterpolate opts 0 f = true then some (interpRule s mesh opts keys2edges) else none) else none) = none by
            split
            · rename_i h0
              rw [if_neg (fun q => hz ⟨h0, Or.inr (iMet.1 q)⟩), if_neg (fun q => hz ⟨h0, Or.inl (iInt.1 q)⟩)]
            · rfl, Option.none_or]
  · intro h0 hi hm
    subst h0
    have hmade := made (interpRule s mesh opts keys2edges) (by omega) (by
      rw [hlast, if_neg (by omega), if_neg (by omega), if_neg (by omega), if_pos rfl, if_neg (fun q => hm (iMet.1 q)), if_pos (iInt.2 hi)]
      rfl)
    obtain ⟨g', v, h1, h2, h3⟩ := hmade
    obtain ⟨v', v1, v2, v3⟩ := interpRule_ok s opts h (refine_count h hD) hf hi (hI f hf hi)
    rw [v1] at h2
    obtain rfl : v' = v := by simpa using h2
    refine ⟨g', (findField_some h1).1, ⟨h3.name, h3.kind, h3.ncomps, h3.size, h3.same, ?_⟩⟩
    intro p n j hpn hj
    rw [h3.prods p n j hpn hj]
    have hpl := (List.getElem?_eq_some_iff.1 hpn).1
    rw [refine_count h hD] at hpl
    rw [v3 p _ j (List.getElem?_eq_getElem hpl) hj, List.getElem?_eq_getElem hpl]
    rfl
  · intro h0 hm
    subst h0
    obtain ⟨g', v, h1, h2, h3⟩ := made (metricRule mesh opts g.midMetric) (by omega) (by
      rw [hlast, if_neg (by omega), if_neg (by omega), if_neg (by omega), if_pos rfl, if_pos (iMet.2 hm)]
      rfl)
    obtain ⟨r, r1, r2⟩ := fieldReals_eq hFd hf hm.2.1
    obtain ⟨l, l1, l2⟩ := hM f hf hm r r2
    refine ⟨r, l, r2, l1, g', (findField_some h1).1, ⟨h3.name, h3.kind, h3.ncomps, h3.size, h3.same, ?_⟩⟩
    intro p n j hpn hj
    rw [h3.prods p n j hpn hj]
    unfold metricRule getField at h2
    simp only [findField_mem hFd.names hf, Option.bind_some, hm.2.1, if_true, bind, r1, l1, pure, Option.some.injEq, Prod.mk.injEq] at h2
    rw [← h2.2.2]
    unfold entry
    rw [List.getElem?_map]
  · intro hE
    have hnd : d = mesh.dim → ¬ shouldTransferDensity mesh.dim opts mesh.dim f = true := fun hdim q => hE ⟨hdim, Or.inl (dens.1 q)⟩
    have hnp : ¬ (d = mesh.dim ∧ PointwiseField opts f) := fun q => hE ⟨q.1, Or.inr q.2⟩
    have hDnone : (d = mesh.dim → ¬ Measured "quality" f ∧ ¬ Measured "size" f) → (if d = mesh.dim then
          (if shouldTransferDensity mesh.dim opts mesh.dim f = true then some (densityRefineRule s mesh opts keys2edges keys2prods) else
          if (measureRule "quality" g.quality x).takes f = true then some (measureRule "quality" g.quality x) else
          if (measureRule "size" g.size x).takes f = true then some (measureRule "size" g.size x) else none) else none) = none := by
      intro hq
      split
      · rename_i hdim
        rw [if_neg (hnd hdim), if_neg (fun q => (hq hdim).1 (iQua.1 q)), if_neg (fun q => (hq hdim).2 (iSiz.1 q))]
      · rfl
    refine ⟨?_, ?_, ?_, ?_, ?_⟩
    · intro h1 hm
      refine measureRule_made (hL h1) hpr hm (made _ hnp ?_)
      rw [hlast, hDnone (fun _ => ⟨hname (by decide) hm, hname (by decide) hm⟩), Option.none_or, if_pos h1, if_pos (iLen.2 hm)]
      rfl
    · intro h2 hm
      have hnn : ∀ b : String, b ≠ "magnetic face flux" → ¬ Measured b f := fun b hb q => hb (q.1.symm.trans hm)
      refine faceFluxRule_made (mesh := mesh) ((hF h2) f (by subst h2; exact hf) hm).2 (made _ hnp ?_)
      rw [hlast, hDnone (fun _ => ⟨hnn _ (by decide), hnn _ (by decide)⟩), Option.none_or, if_neg (by omega), if_pos h2, if_pos (iFlx.2 hm)]
      rfl
    · intro hdim hm
      refine measureRule_made (hS hdim) hpr hm (made _ hnp ?_)
      rw [hlast, if_pos hdim, if_neg (hnd hdim), if_neg (fun q => hname (by decide) hm (iQua.1 q)), if_pos (iSiz.2 hm)]
      rfl
    · intro hdim hm
      refine measureRule_made (hQ hdim) hpr hm (made _ hnp ?_)
      rw [hlast, if_pos hdim, if_neg (hnd hdim), if_pos (iQua.2 hm)]
      rfl
    · intro hni hrem hz
      unfold Remade at hrem
      show findField t' f.name = findField t f.name
      rw [b4 f hf (fun hdim => ⟨hch hdim, fun hp => hnp ⟨hdim, hp⟩⟩), a4 f.name]
      intro f' hf' hnn
      have h1 := findField_mem hFd.names hf
      have h2 := findField_mem hFd.names hf'
      rw [hnn, h1] at h2
      obtain rfl := Option.some.inj h2
      rw [hlast, hDnone (fun hdim => ⟨fun q => hrem (Or.inr (Or.inr ⟨hdim, Or.inr q⟩)), fun q => hrem (Or.inr (Or.inr ⟨hdim, Or.inl q⟩))⟩),
        Option.none_or, if_neg (fun q => hni ((iInh f).1 q))]
      rw [show (if d = 1 then (if (measureRule "length" g.length x).takes f = true then some (measureRule "length" g.length x) else none)
          else if d = 2 then (if (faceFluxRule mesh x).takes f = true then some (faceFluxRule mesh x) else none) else none) = none by
            split
            · rename_i h1
              rw [if_neg (fun q => hrem (Or.inl ⟨h1, iLen.1 q⟩))]
            · split
              · rename_i h2
                rw [if_neg (fun q => hrem (Or.inr (Or.inl ⟨h2, iFlx.1 q⟩)))]
              · rfl, Option.none_or]
      split
      · rename_i h0
        rw [if_neg (fun q => hz ⟨h0, Or.inr (iMet.1 q)⟩), if_neg (fun q => hz ⟨h0, Or.inl (iInt.1 q)⟩)]
        rfl
      · rfl

end
end OmegaH
