import Verif.Model.Conserve
import Verif.Model.Box
/-!
# Correcting conserved quantities

What the end of adaptation does with the errors that have been recorded: they are spread out by diffusion and then taken
from the densities and velocities. src/Omega_h_conserve.cpp:611-837 and `elements_across_sides` of src/Omega_h_adj.cpp. One rank:
`sync_array` changes nothing there. Arithmetic is exact in an ordered field; a division by zero is `none`.
-/
namespace OmegaH

/-- `elements_across_sides_count_functor`: src/Omega_h_adj.cpp:591-620. -/
def acrossCount (s : Sched) (nspe nelems : Nat) (es2s : List Nat) (exposed : List Int) : Option (List Int) :=
  (parScatter s nelems (fun e =>
    ((List.range nspe).mapM (fun i => (es2s[e * nspe + i]?).bind (fun side => (exposed[side]?).map (fun x =>
      if x = 0 then (1 : Int) else 0)))).map (fun l => [(e, l.sum)])) (Mem.alloc nelems)).bind Mem.toArray?

/-- The element across a side, in the loop of `fill`: src/Omega_h_adj.cpp:648-650. -/
def acrossSide (up : Graph) (elem side : Nat) : Option Nat :=
  (up.a2ab[side]?).bind (fun se => (up.ab2b[se]?).bind (fun first => if first = elem then up.ab2b[se + 1]? else some first))

/-- The kernel `fill`: src/Omega_h_adj.cpp:641-655. -/
def acrossFill (s : Sched) (nspe nelems : Nat) (es2s : List Nat) (up : Graph) (exposed : List Int) (offsets : List Nat) (total : Nat) :
    Option (List Nat) :=
  (parScatter s nelems (fun e => (offsets[e]?).bind (fun lo =>
    ((List.range nspe).mapM (fun i => (es2s[e * nspe + i]?).bind (fun side => (exposed[side]?).bind (fun x =>
      if x = 0 then (acrossSide up e side).map (fun o => [o]) else some [])))).map (fun rows => blockWrites lo rows.flatten)))
    (Mem.alloc total)).bind Mem.toArray?

/-- `elements_across_sides`: src/Omega_h_adj.cpp:622-657. -/
def elementsAcrossSides (s : Nat → Sched) (dim : Nat) (es2s : List Nat) (up : Graph) (exposed : List Int) : Option Graph := do
  let nelems ← divideNoRemainder es2s.length (dim + 1)
  let degrees ← acrossCount (s 0) (dim + 1) nelems es2s exposed
  let offsets ← toIndices? (offsetScan degrees)
  let total ← offsets.getLast?
  let adj ← acrossFill (s 1) (dim + 1) nelems es2s up exposed offsets total
  pure ⟨offsets, adj⟩

/-- `get_elem_diffusion_graph`: src/Omega_h_conserve.cpp:618-634, on one rank. -/
def diffusionGraph (s : Nat → Sched) (dim : Nat) (sideClassDims : List Int) (es2s : List Nat) (up : Graph) : Option Graph := do
  let bdry ← eachLt (s 0) sideClassDims dim
  elementsAcrossSides (fun k => s (k + 1)) dim es2s up bdry

section
variable {K : Type} [Field K] [LinearOrder K]

/-- The kernel of `diffuse_densities_once` for one element: src/Omega_h_conserve.cpp:640-656. -/
def diffuseElem (g : Graph) (maxDeg : Nat) (x sizes : List K) (e : Nat) : Option K :=
  (sizes[e]?).bind (fun s => (g.a2ab[e]?).bind (fun lo => (g.a2ab[e + 1]?).bind (fun hi => (x[e]?).bind (fun xe =>
    (List.range' lo (hi - lo)).foldlM (fun acc ee => (g.ab2b[ee]?).bind (fun oe => (sizes[oe]?).bind (fun os => (x[oe]?).bind (fun ox =>
      if s * (maxDeg : K) = 0 then none else some (acc + (ox - xe) * (min s os / (s * (maxDeg : K)))))))) xe))))

/-- `diffuse_densities_once`: src/Omega_h_conserve.cpp:636-659. -/
def diffuseOnce (s : Sched) (dim : Nat) (g : Graph) (x sizes : List K) : Option (List K) :=
  (parScatter s x.length (fun e => (diffuseElem g (dim + 1) x sizes e).map (fun v => [(e, v)])) (Mem.ofList x)).bind Mem.toArray?

/-- `all_bounded`: src/Omega_h_conserve.cpp:669-671. -/
def allBounded (x : List K) (tol : K) : Bool := x.all (fun v => decide (|v| ≤ tol))

/-- `diffuse_densities`: src/Omega_h_conserve.cpp:673-685. `fuel` bounds the number of rounds of the loop; the result is `none` if
it has not ended by then. -/
def diffuseDensities (s : Nat → Sched) (dim : Nat) (g : Graph) (sizes : List K) (tol : K) : Nat → List K → Option (List K)
  | 0, x => if allBounded x tol then some x else none
  | fuel + 1, x => if allBounded x tol then some x
    else (diffuseOnce (s fuel) dim g x sizes).bind (fun y => diffuseDensities s dim g sizes tol fuel y)

/-- `VarCompareOpts`: src/Omega_h_compare.hpp:14-21. Of the type only whether it is `NONE` matters here. -/
structure DiffuseOpts (K : Type) where
  isNone : Bool
  tolerance : K
  floor : K

/-- The end of `diffuse_integrals_weighted`, for one component: src/Omega_h_conserve.cpp:705-712. -/
def diffuseComponent (s : Nat → Sched) (fuel dim : Nat) (g : Graph) (errors quantities : List K) (opts : DiffuseOpts K) : Option (List K) := do
  let a ← mapEach (s 0) (fun q => some |q|) quantities
  let w ← mapEach (s 1) (fun q => some (max q opts.floor)) a
  let d ← divideMaybeZeroK (s 2) errors w
  let d ← diffuseDensities (fun k => s (k + 4)) dim g w opts.tolerance fuel d
  multiplyEachK (s 3) d w

/-- `diffuse_integrals_weighted`: src/Omega_h_conserve.cpp:687-713. -/
def diffuseWeighted (s : Nat → Sched) (fuel dim : Nat) (g : Graph) (errors quantities : List K) (opts : DiffuseOpts K) : Option (List K) :=
  if opts.isNone then some errors
  else (divideNoRemainder errors.length (g.a2ab.length - 1)).bind (fun ncomps =>
    if ncomps > 1 then
      ((List.range ncomps).foldlM (fun out c =>
        (getComponent (s 0) errors ncomps c).bind (fun ei => (getComponent (s 1) quantities ncomps c).bind (fun qi =>
          (diffuseComponent (fun k => s (k + 3)) fuel dim g ei qi opts).bind (fun ei' => setComponent (s 2) out ei' ncomps c))))
        (Mem.alloc errors.length)).bind Mem.toArray?
    else diffuseComponent (fun k => s (k + 3)) fuel dim g errors quantities opts)

/-- `correct_density_error`: src/Omega_h_conserve.cpp:715-735: the new densities. -/
def correctDensity (s : Nat → Sched) (fuel dim : Nat) (g : Graph) (densities sizes errors : List K) (opts : DiffuseOpts K) : Option (List K) := do
  let integrals ← multiplyEachK (s 0) densities sizes
  let errors ← diffuseWeighted (fun k => s (k + 3)) fuel dim g errors integrals opts
  let new ← zipEach (s 1) (fun x y => some (x - y)) integrals errors
  divideEachK (s 2) new sizes

/-- How many vertices of an element are free in a component: src/Omega_h_conserve.cpp:776-784. `none` for an index past the end
of the vector of three numbers. -/
def freeVerts (dim : Nat) (ev2v : List Nat) (flags : List (BitVec 8)) (e comp : Nat) : Option Nat :=
  if 3 ≤ comp then none
  else ((List.range (dim + 1)).mapM (fun i => (ev2v[e * (dim + 1) + i]?).bind (fun v => (flags[v]?).map (fun f =>
    if f.getLsbD comp then 0 else 1)))).map List.sum

/-- The velocity that the kernel of `correct_momentum_error` computes: src/Omega_h_conserve.cpp:771-792. -/
def correctVelocity (dim ncomps : Nat) (ev2v : List Nat) (v2e : Graph) (flags : List (BitVec 8)) (vertMasses errors velocities : List K)
    (v comp : Nat) : Option K :=
  (flags[v]?).bind (fun vf => (vertMasses[v]?).bind (fun vm => (v2e.a2ab[v]?).bind (fun lo => (v2e.a2ab[v + 1]?).bind (fun hi =>
    (velocities[v * ncomps + comp]?).bind (fun x => (List.range' lo (hi - lo)).foldlM (fun acc ve => (v2e.ab2b[ve]?).bind (fun e =>
      (freeVerts dim ev2v flags e comp).bind (fun nfree => if vf.getLsbD comp then some acc
        else (errors[e * ncomps + comp]?).bind (fun err =>
          if (nfree : K) * vm = 0 then none else some (acc - err / ((nfree : K) * vm)))))) x)))))

/-- `correct_momentum_error`: src/Omega_h_conserve.cpp:737-797: the new velocities. -/
def correctMomentum (s : Nat → Sched) (fuel dim ncomps nverts nelems : Nat) (g : Graph) (ev2v : List Nat) (v2e : Graph) (flags : List (BitVec 8))
    (densities oldDensities sizes velocities errors : List K) (opts : DiffuseOpts K) : Option (List K) := do
  let masses ← multiplyEachK (s 0) densities sizes
  let oldMasses ← multiplyEachK (s 1) oldDensities sizes
  let elemVelocities ← averageField (s 2) ncomps (dim + 1) ev2v velocities nelems
  let oldMomenta ← multiplyEachK (s 3) elemVelocities oldMasses
  let newMomenta ← multiplyEachK (s 4) elemVelocities masses
  let fromDensity ← zipEach (s 5) (fun x y => some (x - y)) newMomenta oldMomenta
  let perEdge ← unmap (s 6) v2e.ab2b masses 1
  let vertMasses ← fanReduce (s 7) sumFunctorK v2e.a2ab perEdge 1
  let vertMasses ← mapEach (s 8) (fun m => some (m / ((dim + 1 : Nat) : K))) vertMasses
  let errors ← zipEach (s 9) (fun x y => some (x + y)) errors fromDensity
  let errors ← diffuseWeighted (fun k => s (k + 12)) fuel dim g errors newMomenta opts
  (parScatter (s 10) nverts (fun v => ((List.range ncomps).mapM (fun comp =>
    correctVelocity dim ncomps ev2v v2e flags vertMasses errors velocities v comp)).map (fun l => blockWrites (v * ncomps) l))
    (Mem.ofList velocities)).bind Mem.toArray?

end
end OmegaH
