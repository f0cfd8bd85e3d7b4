import Verif.Lemmas.ProfileWalk
import Mathlib.Algebra.BigOperators.Group.List.Basic
/-!
# The inverted profile
-/
namespace OmegaH
open Spec

variable {K : Type}

/-- The paths that are met on the way along `R` from `Q`. -/
def pathsAlong : List (List Nat) → List (List Nat) → List (List (List Nat))
  | _, [] => []
  | Q, x :: R => (Q ++ [x]) :: pathsAlong (Q ++ [x]) R

theorem mem_pathsAlong : ∀ (R Q P : List (List Nat)), P ∈ pathsAlong Q R ↔ ∃ S, S ≠ [] ∧ P = Q ++ S ∧ S <+: R := by
  intro R
  induction R with
  | nil =>
    intro Q P
    simp only [pathsAlong, List.not_mem_nil, List.prefix_nil, false_iff, not_exists]
    rintro S ⟨h1, _, h2⟩
    exact h1 h2
  | cons x R ih =>
    intro Q P
    rw [pathsAlong, List.mem_cons, ih]
    constructor
    · rintro (rfl | ⟨S, _, rfl, hS⟩)
      · exact ⟨[x], by simp, rfl, by simp⟩
      · exact ⟨x :: S, by simp, by simp, by simpa using hS⟩
    · rintro ⟨S, h1, rfl, h2⟩
      cases S with
      | nil => exact absurd rfl h1
      | cons y S =>
        obtain ⟨rfl, h3⟩ := List.cons_prefix_cons.1 h2
        cases S with
        | nil => exact .inl rfl
        | cons z S => exact .inr ⟨z :: S, by simp, by simp, h3⟩

theorem pathsAlong_longer {R Q P : List (List Nat)} (h : P ∈ pathsAlong Q R) : Q.length < P.length := by
  obtain ⟨S, h1, rfl, _⟩ := (mem_pathsAlong R Q P).1 h
  have := List.length_pos_iff.2 h1
  simp; omega

/-- What a profile holds: `C` and `T` by path; nothing for paths without an entry. -/
structure PHistory.Holds [Zero K] (h : PHistory K) (S : List (List Nat) → Prop) (C : List (List Nat) → Nat) (T : List (List Nat) → K) :
    Prop where
  wf : h.WF
  has : ∀ P, (∃ i, h.HasPath i P) ↔ S P
  val : ∀ (i : Nat) f P, h.frames[i]? = some f → h.HasPath i P → f.calls = C P ∧ f.totalRuntime = T P
  zero : ∀ P, ¬ S P → C P = 0 ∧ T P = 0

theorem PHistory.Holds.walk [AddCommMonoid K] {h : PHistory K} (hz : ∀ i x, h.name i = some x → 0 ∉ x) (self : K) (calls : Nat) :
    ∀ (R : List (List Nat)) (node : Option Nat) (fuel : Nat) (inv : PHistory K) (invNode : Option Nat) (Q : List (List Nat))
      (S : List (List Nat) → Prop) (C : List (List Nat) → Nat) (T : List (List Nat) → K),
    (∀ i, node = some i → h.HasPath i R.reverse) → (node = none → R = []) → R.length ≤ fuel →
    inv.Holds S C T → (∀ i, invNode = some i → inv.HasPath i Q) → (invNode = none → Q = []) →
    ∃ inv', h.invertWalk self calls fuel node inv invNode = some inv' ∧
      inv'.Holds (fun P => S P ∨ P ∈ pathsAlong Q R) (fun P => C P + if P ∈ pathsAlong Q R then calls else 0)
        (fun P => T P + if P ∈ pathsAlong Q R then self else 0) := by
  intro R
  induction R with
  | nil =>
    intro node fuel inv invNode Q S C T hn hn0 hfuel hh _ _
    cases node with
    | some i =>
      have := hn i rfl
      exact absurd rfl (PHistory.HasPath.ne_nil this)
    | none =>
      refine ⟨inv, by cases fuel <;> rfl, ?_⟩
      simpa [pathsAlong] using hh
  | cons x R ih =>
    intro node fuel inv invNode Q S C T hn hn0 hfuel hh hq hq0
    cases node with
    | none => exact absurd (hn0 rfl) (by simp)
    | some i =>
      cases fuel with
      | zero => simp at hfuel
      | succ fuel =>
        have hpi := hn i rfl
        rw [List.reverse_cons] at hpi
        obtain ⟨p, hpar, hname, hp1, hp0⟩ : ∃ p, h.parent i = some p ∧ h.name i = some x ∧ (∀ j, p = some j → h.HasPath j R.reverse) ∧
            (p = none → R = []) := by
          generalize hP : R.reverse ++ [x] = P at hpi
          cases hpi with
          | root _ y a b =>
            refine ⟨none, a, ?_, (fun j hj => nomatch hj), (fun _ => ?_)⟩
            · cases hr : R.reverse with
              | nil => rw [hr] at hP; simp at hP; rw [hP]; exact b
              | cons c d => rw [hr] at hP; simp at hP
            · cases hr : R.reverse with
              | nil => simpa using hr
              | cons c d => rw [hr] at hP; simp at hP
          | child _ j y P' a b c =>
            obtain ⟨h1, h2⟩ := List.append_inj' hP rfl
            cases h2
            exact ⟨some j, a, b, fun k hk => by cases hk; rw [h1]; exact c, fun e => by cases e⟩
        obtain ⟨hwi, hhas, hval, hzero⟩ := hh
        obtain ⟨inv1, k, f, e, hw1, hg, hf, hpf, hnk, hcase⟩ := hwi.foc invNode (fun q hq' => (hq q hq').lt) x (hz i x hname)
        have hkf : k < inv1.frames.length := (List.getElem?_eq_some_iff.1 hf).1
        have hkpath : inv1.HasPath k (Q ++ [x]) := by
          have hpk : inv1.parent k = some invNode := by unfold PHistory.parent; rw [hf, Option.map_some, hpf]
          cases hc : invNode with
          | none => rw [hq0 hc]; exact .root k x (by rw [hpk, hc]) hnk
          | some q => exact .child k q x _ (by rw [hpk, hc]) hnk ((hq q hc).mono hg)
        let g : PFrame K → PFrame K := fun f => { f with totalRuntime := f.totalRuntime + self, calls := f.calls + calls }
        have hgk : ∀ f, (g f).parent = f.parent ∧ (g f).firstChild = f.firstChild ∧ (g f).lastChild = f.lastChild ∧
            (g f).nextSibling = f.nextSibling ∧ (g f).namePtr = f.namePtr := fun f => ⟨rfl, rfl, rfl, rfl, rfl⟩
        have hpath2 := PHistory.count_path k g hgk inv1.current hw1
        obtain ⟨hw2, _⟩ := hw1.count k g hgk inv1.current
        have hget : ∀ j : Nat, (inv1.frames.modify k g)[j]? = (inv1.frames[j]?).map (fun f => if k = j then g f else f) := by
          intro j
          rw [List.getElem?_modify]
          by_cases e : k = j
          · simp [e]
          · simp [e]
        -- the old paths, and the new one
        have hold : ∀ P j, inv1.HasPath j P → (j = k ∧ P = Q ++ [x]) ∨ (inv.HasPath j P ∧ j ≠ k) := by
          intro P j hj
          by_cases hjk : j = k
          · subst hjk; exact .inl ⟨rfl, PHistory.HasPath.path_unique hj hkpath⟩
          · refine .inr ⟨?_, hjk⟩
            have hjn : j < inv.frames.length := by
              rcases hcase with ⟨rfl, _⟩ | ⟨h1, h2, _⟩
              · exact hj.lt
              · have := hj.lt; omega
            obtain ⟨P', hP'⟩ := hwi.hasPath j hjn
            rw [PHistory.HasPath.path_unique hj (hP'.mono hg)]
            exact hP'
        have hfv : f.calls = C (Q ++ [x]) ∧ f.totalRuntime = T (Q ++ [x]) := by
          rcases hcase with ⟨rfl, _⟩ | ⟨h1, h2, h3, h4, _⟩
          · exact hval k f _ hf hkpath
          · have hns : ¬ S (Q ++ [x]) := by
              rw [← hhas]
              rintro ⟨j, hj⟩
              have := hw1.frame_unique (hj.mono hg) hkpath
              have := hj.lt
              omega
            rw [(hzero _ hns).1, (hzero _ hns).2]
            exact ⟨h4, h3⟩
        have hholds : ({ inv1 with frames := inv1.frames.modify k g } : PHistory K).Holds (fun P => S P ∨ P = Q ++ [x])
            (fun P => C P + if P = Q ++ [x] then calls else 0) (fun P => T P + if P = Q ++ [x] then self else 0) := by
          refine ⟨hw2, ?_, ?_, ?_⟩
          · intro P
            constructor
            · rintro ⟨j, hj⟩
              rcases hold P j ((hpath2 j P).1 hj) with ⟨_, rfl⟩ | ⟨hj', _⟩
              · exact .inr rfl
              · exact .inl ((hhas P).1 ⟨j, hj'⟩)
            · rintro (hs | rfl)
              · obtain ⟨j, hj⟩ := (hhas P).2 hs
                exact ⟨j, (hpath2 j P).2 (hj.mono hg)⟩
              · exact ⟨k, (hpath2 k _).2 hkpath⟩
          · intro j f' P hf' hj
            have hj1 := (hpath2 j P).1 hj
            rw [show ({ inv1 with frames := inv1.frames.modify k g } : PHistory K).frames = inv1.frames.modify k g from rfl, hget] at hf'
            rcases hold P j hj1 with ⟨rfl, rfl⟩ | ⟨hj', hne⟩
            · rw [hf, Option.map_some, if_pos rfl] at hf'
              cases hf'
              simp only [if_true]
              rw [← hfv.1, ← hfv.2]
              exact ⟨rfl, rfl⟩
            · have hPne : P ≠ Q ++ [x] := fun hP => hne (hw1.frame_unique (hP ▸ hj1) hkpath)
              obtain ⟨f1, hf1, _, e1, e2, _⟩ := hg.keep j _ (List.getElem?_eq_getElem hj'.lt)
              rw [hf1, Option.map_some, if_neg (fun e => hne e.symm)] at hf'
              cases hf'
              rw [if_neg hPne, if_neg hPne, Nat.add_zero, add_zero, e1, e2]
              exact hval j _ P (List.getElem?_eq_getElem hj'.lt) hj'
          · intro P hP
            have h1 : ¬ S P := fun hh => hP (.inl hh)
            have h2 : ¬ P = Q ++ [x] := fun hh => hP (.inr hh)
            rw [if_neg h2, if_neg h2, (hzero P h1).1, (hzero P h1).2]
            exact ⟨rfl, add_zero 0⟩
        obtain ⟨inv', e', hh'⟩ := ih p fuel { inv1 with frames := inv1.frames.modify k g } (some k) (Q ++ [x]) _ _ _ hp1 hp0
          (by simp at hfuel; omega) hholds (fun j hj => by cases hj; exact (hpath2 k _).2 hkpath) (fun e => by cases e)
        refine ⟨inv', ?_, ?_⟩
        · show (h.name i).bind _ = _
          rw [hname, Option.bind_some, e, Option.bind_some]
          unfold PHistory.modify
          dsimp only
          rw [if_pos hkf, Option.bind_some, hpar, Option.bind_some]
          exact e'
        · have hnot : (Q ++ [x]) ∉ pathsAlong (Q ++ [x]) R := fun hm => absurd (pathsAlong_longer hm) (by omega)
          have hsplit : ∀ P, P ∈ pathsAlong Q (x :: R) ↔ P = Q ++ [x] ∨ P ∈ pathsAlong (Q ++ [x]) R := by
            intro P; rw [pathsAlong, List.mem_cons]
          obtain ⟨a1, a2, a3, a4⟩ := hh'
          have hc : ∀ (α : Type) [AddCommMonoid α] (s c : α) (P : List (List Nat)), (c + if P = Q ++ [x] then s else 0) +
              (if P ∈ pathsAlong (Q ++ [x]) R then s else 0) = c + if P ∈ pathsAlong Q (x :: R) then s else 0 := by
            intro α _ s c P
            by_cases h1 : P = Q ++ [x]
            · subst h1
              rw [if_pos rfl, if_neg hnot, if_pos ((hsplit _).2 (.inl rfl)), add_zero]
            · rw [if_neg h1, add_zero]
              by_cases h2 : P ∈ pathsAlong (Q ++ [x]) R
              · rw [if_pos h2, if_pos ((hsplit _).2 (.inr h2))]
              · rw [if_neg h2, if_neg (fun hm => ((hsplit P).1 hm).elim h1 h2)]
          have hS : ∀ P, (S P ∨ P ∈ pathsAlong Q (x :: R)) ↔ ((S P ∨ P = Q ++ [x]) ∨ P ∈ pathsAlong (Q ++ [x]) R) := by
            intro P; rw [hsplit, or_assoc]
          refine ⟨a1, fun P => by rw [a2, hS], ?_, ?_⟩
          · intro j f' P hf' hP
            obtain ⟨b1, b2⟩ := a3 j f' P hf' hP
            rw [hc] at b1 b2
            exact ⟨b1, b2⟩
          · intro P hP
            rw [hS] at hP
            obtain ⟨b1, b2⟩ := a4 P hP
            rw [hc] at b1 b2
            exact ⟨b1, b2⟩

theorem foldl_sub_eq [AddCommGroup K] (l : List K) : ∀ t : K, l.foldl (fun x y => x - y) t = t - l.sum := by
  induction l with
  | nil => intro t; simp
  | cons a l ih => intro t; rw [List.foldl_cons, ih, List.sum_cons, sub_sub]

theorem mapM_time {h : PHistory K} {time : Nat → K} (ht : ∀ i, i < h.frames.length → h.time i = some (time i)) (l : List Nat)
    (hl : ∀ i ∈ l, i < h.frames.length) : l.mapM h.time = some (l.map time) := by
  induction l with
  | nil => rfl
  | cons a l ih =>
    rw [List.mapM_cons, ht a (hl a List.mem_cons_self), ih (fun i hi => hl i (List.mem_cons_of_mem _ hi))]
    rfl

/-- The total over some frames of what path `P` gets. -/
def credits {α : Type} [Zero α] [Add α] (path : Nat → List (List Nat)) (v : Nat → α) (done : List Nat) (P : List (List Nat)) : α :=
  (done.map (fun j => if P ∈ pathsAlong [] (path j).reverse then v j else 0)).sum

theorem PHistory.WF.invertLoop [AddCommGroup K] [Max K] {h : PHistory K} (hw : h.WF) (hz : ∀ i x, h.name i = some x → 0 ∉ x)
    {time : Nat → K} {calls : Nat → Nat} {path : Nat → List (List Nat)} (ht : ∀ i, i < h.frames.length → h.time i = some (time i))
    (hc : ∀ i, i < h.frames.length → h.callsOf i = some (calls i)) (hp : ∀ i, i < h.frames.length → h.HasPath i (path i)) :
    ∀ (fuel : Nat) (q done : List Nat) (inv : PHistory K), fuel + done.length = h.frames.length → (done ++ q).Nodup →
      (∀ i ∈ done ++ q, i < h.frames.length) → (∀ i ∈ h.kids none, i ∈ done ++ q) →
      (∀ i ∈ done, ∀ j ∈ h.kids (some i), j ∈ done ++ q) →
      (∀ i ∈ done ++ q, ∀ p, h.parent i = some (some p) → p ∈ done) →
      inv.Holds (fun P => ∃ j ∈ done, P ∈ pathsAlong [] (path j).reverse) (credits path calls done)
        (credits path (fun j => max (time j - ((h.kids (some j)).map time).sum) 0) done) →
      ∃ inv' done', h.invertLoop fuel q inv = some inv' ∧ done'.Perm (List.range h.frames.length) ∧
        inv'.Holds (fun P => ∃ j ∈ done', P ∈ pathsAlong [] (path j).reverse) (credits path calls done')
          (credits path (fun j => max (time j - ((h.kids (some j)).map time).sum) 0) done') := by
  intro fuel
  induction fuel with
  | zero =>
    intro q done inv hfuel hnd hlt hroots hkids hpar hh
    have hq : q = [] := by
      have hsub : (done ++ q).length ≤ (List.range h.frames.length).length :=
        (List.subperm_of_subset hnd (fun i hi => List.mem_range.2 (hlt i hi))).length_le
      rw [List.length_append, List.length_range] at hsub
      exact List.length_eq_zero_iff.1 (by omega)
    subst hq
    refine ⟨inv, done, rfl, ?_, hh⟩
    rw [List.append_nil] at hnd hlt
    refine (List.subperm_of_subset hnd (fun i hi => List.mem_range.2 (hlt i hi))).perm_of_length_le ?_
    rw [List.length_range]; omega
  | succ fuel ih =>
    intro q done inv hfuel hnd hlt hroots hkids hpar hh
    cases q with
    | nil =>
      refine ⟨inv, done, rfl, ?_, hh⟩
      rw [List.append_nil] at hnd hlt hroots hkids
      rw [List.perm_ext_iff_of_nodup hnd List.nodup_range]
      intro j
      rw [List.mem_range]
      refine ⟨hlt j, ?_⟩
      induction j using Nat.strongRecOn with
      | ind j ihj =>
        intro hj
        have hf := List.getElem?_eq_getElem hj
        cases hpj : (h.frames[j]).parent with
        | none => exact hroots j (PHistory.mem_kids.2 ⟨_, hf, hpj⟩)
        | some p =>
          have hpl := hw.par j _ hf p hpj
          have hm := hkids p (ihj p hpl (by omega)) j (PHistory.mem_kids.2 ⟨_, hf, hpj⟩)
          exact hm
    | cons node q =>
      have hnode := hlt node (by simp)
      have hlen : (path node).reverse.length ≤ h.frames.length := by
        rw [List.length_reverse]
        -- a path is not longer than the index of its frame allows
        have : ∀ i P, h.HasPath i P → P.length ≤ i + 1 := by
          intro i P hP
          unfold PHistory.HasPath at hP
          induction hP with
          | root => simp
          | child i j x P a b c ihc =>
            have := hw.kids_gt (PHistory.mem_kids_parent.2 a)
            simp; omega
        have := this node _ (hp node hnode)
        omega
      obtain ⟨inv1, e1, h1⟩ := PHistory.Holds.walk hz (max (time node - ((h.kids (some node)).map time).sum) 0) (calls node)
        (path node).reverse (some node) h.frames.length inv none [] _ _ _
        (fun i hi => by cases hi; rw [List.reverse_reverse]; exact hp node hnode) (fun e => by cases e) hlen hh
        (fun i hi => by cases hi) (fun _ => rfl)
      have hnd' : (done ++ node :: q).Nodup := hnd
      have hnot : node ∉ done := by
        intro hm
        exact (List.nodup_append.1 hnd').2.2 node hm node List.mem_cons_self rfl
      have hnew : (done ++ [node]) ++ (q ++ h.kids (some node)) = (done ++ node :: q) ++ h.kids (some node) := by simp
      obtain ⟨inv', done', e2, hperm, h2⟩ := ih (q ++ h.kids (some node)) (done ++ [node]) inv1 (by simp; omega)
        (by
          rw [hnew, List.nodup_append]
          refine ⟨hnd, (h.kids_sorted (some node)).imp (fun hh => by omega), ?_⟩
          intro a ha b hb hab
          subst hab
          exact hnot (hpar a ha node (PHistory.mem_kids_parent.1 hb)))
        (by
          rw [hnew]
          intro i hi
          rcases List.mem_append.1 hi with hi | hi
          · exact hlt i hi
          · exact PHistory.kids_lt hi)
        (by rw [hnew]; exact fun i hi => List.mem_append_left _ (hroots i hi))
        (by
          rw [hnew]
          intro i hi j hj
          rcases List.mem_append.1 hi with hi | hi
          · exact List.mem_append_left _ (hkids i hi j hj)
          · rw [List.mem_singleton] at hi
            subst hi
            exact List.mem_append_right _ hj)
        (by
          rw [hnew]
          intro i hi p hpi
          rcases List.mem_append.1 hi with hi | hi
          · exact List.mem_append_left _ (hpar i hi p hpi)
          · have := PHistory.mem_kids_parent.1 hi
            rw [this] at hpi
            cases hpi
            exact List.mem_append_right _ (List.mem_singleton.2 rfl))
        (by
          have hcr : ∀ (α : Type) [AddCommMonoid α] (v : Nat → α) (P : List (List Nat)), credits path v (done ++ [node]) P =
              credits path v done P + if P ∈ pathsAlong [] (path node).reverse then v node else 0 := by
            intro α _ v P
            unfold credits
            rw [List.map_append, List.sum_append]
            simp
          have hS : ∀ P, (∃ j ∈ done ++ [node], P ∈ pathsAlong [] (path j).reverse) ↔
              ((∃ j ∈ done, P ∈ pathsAlong [] (path j).reverse) ∨ P ∈ pathsAlong [] (path node).reverse) := by
            intro P
            constructor
            · rintro ⟨j, hj, hP⟩
              rcases List.mem_append.1 hj with hj | hj
              · exact .inl ⟨j, hj, hP⟩
              · rw [List.mem_singleton] at hj; subst hj; exact .inr hP
            · rintro (⟨j, hj, hP⟩ | hP)
              · exact ⟨j, List.mem_append_left _ hj, hP⟩
              · exact ⟨node, by simp, hP⟩
          obtain ⟨a1, a2, a3, a4⟩ := h1
          refine ⟨a1, fun P => by rw [a2, hS], ?_, ?_⟩
          · intro j f' P hf' hP
            rw [hcr, hcr]
            exact a3 j f' P hf' hP
          · intro P hP
            rw [hS] at hP
            rw [hcr, hcr]
            exact a4 P hP)
      refine ⟨inv', done', ?_, hperm, h2⟩
      show (h.time node).bind _ = _
      rw [ht node hnode, Option.bind_some, hc node hnode, Option.bind_some, hw.childrenOf (some node) (fun q hq => by cases hq; exact hnode),
        Option.bind_some, mapM_time ht _ (fun i hi => PHistory.kids_lt hi), Option.bind_some]
      dsimp only
      rw [foldl_sub_eq, e1, Option.bind_some]
      exact e2

end OmegaH
