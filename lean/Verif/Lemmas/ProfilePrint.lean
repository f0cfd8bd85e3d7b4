import Verif.Lemmas.ProfileInvert
import Mathlib.Order.Defs.LinearOrder
/-!
# What is printed of a profile
-/
namespace OmegaH
open Spec

variable {K : Type}

/-- The history of a run of a program. -/
def PHistory.Recorded [Zero K] [Add K] [Sub K] (h : PHistory K) : Prop :=
  ∃ es : List (PEvent K), (∀ n t, PEvent.start n t ∈ es → 0 ∉ n) ∧ es.foldlM PHistory.event PHistory.empty = some h

/-- The history of a run, or one that was made from it by inversion. -/
def PHistory.Made [Zero K] [Add K] [Sub K] [Max K] (h : PHistory K) : Prop :=
  h.Recorded ∨ ∃ (h0 : PHistory K) (c r : Option Nat), h0.Recorded ∧ h0.invert c r = some h

theorem PHistory.name_nonzero {h : PHistory K} {i : Nat} {x : PName} (hx : h.name i = some x) : 0 ∉ x := by
  unfold PHistory.name at hx
  cases hf : h.frames[i]? with
  | none => rw [hf] at hx; simp at hx
  | some f =>
    rw [hf, Option.bind_some] at hx
    unfold charsGet at hx
    split at hx
    · cases hx
      intro hm
      have := List.all_eq_true.1 List.all_takeWhile 0 hm
      simp at this
    · cases hx

theorem PHistory.Recorded.inv [AddCommGroup K] {h : PHistory K} (hr : h.Recorded) : ∃ log, h.Inv log := by
  obtain ⟨es, hn, he⟩ := hr
  have := PHistory.Inv.run es PHistory.empty _ PHistory.Inv.empty hn
  cases hs : es.foldlM PLog.step (⟨[], [], []⟩ : PLog K) with
  | none => rw [hs] at this; rw [this] at he; cases he
  | some log =>
    rw [hs] at this
    obtain ⟨h', e, hi⟩ := this
    rw [e] at he
    cases he
    exact ⟨log, hi⟩

theorem PHistory.WF.reads [Zero K] {h : PHistory K} (hw : h.WF) : ∃ (name : Nat → List Nat) (calls : Nat → Nat) (time : Nat → K)
    (path : Nat → List (List Nat)), PReads h.frames.length h.parent h.name h.callsOf h.time name calls time path := by
  refine ⟨fun i => (h.name i).getD [], fun i => (h.callsOf i).getD 0, fun i => (h.time i).getD 0, ?_⟩
  have : ∃ path : Nat → List (List Nat), ∀ i, i < h.frames.length → h.HasPath i (path i) := by
    refine ⟨fun i => open Classical in if hi : i < h.frames.length then (hw.hasPath i hi).choose else [], fun i hi => ?_⟩
    dsimp only
    rw [dif_pos hi]
    exact (hw.hasPath i hi).choose_spec
  obtain ⟨path, hp⟩ := this
  refine ⟨path, ?_, ?_, ?_, hp⟩
  · intro i hi
    obtain ⟨x, hx⟩ := hw.named i _ (List.getElem?_eq_getElem hi)
    rw [hx]; rfl
  · intro i hi
    unfold PHistory.callsOf
    rw [List.getElem?_eq_getElem hi]; rfl
  · intro i hi
    show h.time i = some ((h.time i).getD 0)
    unfold PHistory.time
    rw [List.getElem?_eq_getElem hi]; rfl

theorem PHistory.kids_eq (h : PHistory K) (q : Option Nat) :
    h.kids q = (List.range h.frames.length).filter (fun k => decide (h.parent k = some q)) := by
  unfold PHistory.kids
  refine List.filter_congr (fun j hj => ?_)
  rfl

theorem mem_pathsAlong_nil {R P : List (List Nat)} : P ∈ pathsAlong [] R ↔ P ≠ [] ∧ P <+: R := by
  rw [mem_pathsAlong]
  constructor
  · rintro ⟨S, h1, rfl, h2⟩; exact ⟨by simpa using h1, by simpa using h2⟩
  · rintro ⟨h1, h2⟩; exact ⟨P, h1, by simp, h2⟩

theorem reverse_suffix_path {q P : List (List Nat)} : q.reverse <:+ P ↔ q <+: P.reverse := by
  rw [← List.reverse_prefix, List.reverse_reverse]

theorem credits_eq {α : Type} [AddCommMonoid α] (n : Nat) (path : Nat → List (List Nat)) (v : Nat → α) (done : List Nat)
    (hd : done.Perm (List.range n)) (q : List (List Nat)) (hq : q ≠ []) : credits path v done q = ((endsIn n path q).map v).sum := by
  unfold credits endsIn
  rw [(hd.map _).sum_eq]
  generalize List.range n = l
  induction l with
  | nil => rfl
  | cons a l ih =>
    rw [List.map_cons, List.sum_cons, ih, List.filter_cons]
    by_cases hc : q.reverse <:+ path a
    · rw [if_pos (mem_pathsAlong_nil.2 ⟨hq, reverse_suffix_path.1 hc⟩), if_pos (by simpa using hc), List.map_cons, List.sum_cons]
    · rw [if_neg (fun hm => hc (reverse_suffix_path.2 (mem_pathsAlong_nil.1 hm).2)), if_neg (by simpa using hc), zero_add]

/-- The inverted profile by path. -/
theorem PHistory.WF.invertOf [AddCommGroup K] [Max K] {h : PHistory K} (hw : h.WF) {name : Nat → List Nat} {time : Nat → K} {calls : Nat → Nat}
    {path : Nat → List (List Nat)} (hr : PReads h.frames.length h.parent h.name h.callsOf h.time name calls time path) (c r : Option Nat) :
    ∃ inv, h.invert c r = some inv ∧ inv.WF ∧
      (∀ q, (∃ i, inv.HasPath i q) ↔ q ≠ [] ∧ endsIn h.frames.length path q ≠ []) ∧
      (∀ i q, inv.HasPath i q → inv.callsOf i = some ((endsIn h.frames.length path q).map calls).sum ∧
        inv.time i = some ((endsIn h.frames.length path q).map (selfTime h.frames.length h.parent time)).sum) := by
  obtain ⟨inv, done, e, hperm, hh⟩ := hw.invertLoop (fun i x hx => PHistory.name_nonzero hx) hr.time_eq hr.calls_eq hr.path_of
    h.frames.length (h.kids none) [] (h.copyOptions c r) (by simp)
    (by rw [List.nil_append]; exact (h.kids_sorted none).imp (fun hh => by omega)) (by simpa using fun i hi => PHistory.kids_lt hi)
    (by simp) (by simp) (by
      intro i hi p hp
      rw [List.nil_append] at hi
      rw [PHistory.mem_kids_parent.1 hi] at hp
      cases hp)
    (by
      refine ⟨PHistory.WF.empty c r, ?_, ?_, ?_⟩
      · intro P
        constructor
        · rintro ⟨i, hi⟩
          exact absurd hi.lt (by simp [PHistory.copyOptions])
        · rintro ⟨j, hj, _⟩; simp at hj
      · intro i f P hf
        simp [PHistory.copyOptions] at hf
      · intro P _
        exact ⟨rfl, rfl⟩)
  obtain ⟨a1, a2, a3, a4⟩ := hh
  refine ⟨inv, ?_, a1, ?_, ?_⟩
  · unfold PHistory.invert
    rw [hw.childrenOf none (fun q hq => by cases hq), Option.bind_some]
    exact e
  · intro q
    rw [a2]
    constructor
    · rintro ⟨j, hj, hm⟩
      obtain ⟨h1, h2⟩ := mem_pathsAlong_nil.1 hm
      refine ⟨h1, List.ne_nil_of_mem (a := j) ?_⟩
      unfold endsIn
      rw [List.mem_filter]
      exact ⟨hperm.mem_iff.1 hj, by simpa using reverse_suffix_path.2 h2⟩
    · rintro ⟨h1, h2⟩
      obtain ⟨j, hj⟩ := List.exists_mem_of_ne_nil _ h2
      unfold endsIn at hj
      rw [List.mem_filter, decide_eq_true_iff] at hj
      exact ⟨j, hperm.mem_iff.2 hj.1, mem_pathsAlong_nil.2 ⟨h1, reverse_suffix_path.1 hj.2⟩⟩
  · intro i q hi
    have hq := hi.ne_nil
    have hf := List.getElem?_eq_getElem hi.lt
    obtain ⟨b1, b2⟩ := a3 i _ q hf hi
    rw [credits_eq _ _ _ _ hperm q hq] at b1
    rw [credits_eq _ _ _ _ hperm q hq] at b2
    unfold PHistory.callsOf PHistory.time
    rw [hf, Option.map_some, Option.map_some, b1, b2]
    refine ⟨rfl, ?_⟩
    congr 2

theorem PHistory.Made.wf [AddCommGroup K] [Max K] {h : PHistory K} (hm : h.Made) : h.WF := by
  rcases hm with hr | ⟨h0, c, r, hr, e⟩
  · obtain ⟨_, hi⟩ := hr.inv; exact hi.wf
  · obtain ⟨_, hi⟩ := hr.inv
    obtain ⟨name, calls, time, path, hrd⟩ := hi.wf.reads
    obtain ⟨inv, e', hw, _⟩ := hi.wf.invertOf hrd c r
    rw [e'] at e
    cases e
    exact hw

/-! Depths and lines -/

theorem PHistory.WF.depthsOf {h : PHistory K} (hw : h.WF) {path : Nat → List (List Nat)} (hp : ∀ i, i < h.frames.length → h.HasPath i (path i)) :
    ∃ ds, h.depths = some ds ∧ ds.length = h.frames.length ∧ ∀ i, i < h.frames.length → ds[i]? = some ((path i).length - 1) := by
  obtain ⟨a, e, hwk, hperm⟩ := hw.preOrderOf
  obtain ⟨ds, e2, hl, hd, _⟩ := hw.depths_walk (D := fun i => (path i).length - 1) (by
      intro i P hP
      have := PHistory.HasPath.path_unique hP (hp i hP.lt)
      subst this
      have := List.length_pos_iff.2 hP.ne_nil
      omega) hwk none (List.replicate h.frames.length 0) (fun i hi => hi) (fun q hq => by cases hq) (by simp)
  refine ⟨ds, ?_, hl, fun i hi => hd i (hperm.mem_iff.2 (List.mem_range.2 hi))⟩
  unfold PHistory.depths
  rw [e, Option.bind_some]
  exact e2

theorem mapM_some_of {α β : Type} {f : α → Option β} {g : α → β} (l : List α) (hl : ∀ a ∈ l, f a = some (g a)) :
    l.mapM f = some (l.map g) := by
  induction l with
  | nil => rfl
  | cons a l ih =>
    rw [List.mapM_cons, hl a List.mem_cons_self, ih (fun i hi => hl i (List.mem_cons_of_mem _ hi))]
    rfl

theorem PHistory.WF.printSimple {h : PHistory K} (hw : h.WF) {name : Nat → List Nat} {time : Nat → K} {calls : Nat → Nat}
    {path : Nat → List (List Nat)} (hr : PReads h.frames.length h.parent h.name h.callsOf h.time name calls time path) :
    ∃ a, PWalk (fun i => h.kids (some i)) (h.kids none) a ∧ a.Perm (List.range h.frames.length) ∧
      h.simplePrint = some (a.map (fun i => ⟨(path i).length - 1, name i, time i, calls i⟩)) := by
  obtain ⟨a, e, hwk, hperm⟩ := hw.preOrderOf
  obtain ⟨ds, e2, hl, hd⟩ := hw.depthsOf hr.path_of
  refine ⟨a, hwk, hperm, ?_⟩
  unfold PHistory.simplePrint
  rw [e2, Option.bind_some, e, Option.bind_some]
  refine mapM_some_of a (fun i hi => ?_)
  have hi := List.mem_range.1 (hperm.mem_iff.1 hi)
  have h1 := hr.time_eq i hi
  have h2 := hr.calls_eq i hi
  unfold PHistory.time at h1
  unfold PHistory.callsOf at h2
  rw [List.getElem?_eq_getElem hi] at h1 h2
  rw [hd i hi, Option.bind_some, hr.name_eq i hi, Option.bind_some, List.getElem?_eq_getElem hi, Option.map_some]
  simp only [Option.map_some, Option.some.injEq] at h1 h2
  rw [h1, h2]

/-! Sorted -/

/-- Siblings by decreasing time; with equal times, as they were made. -/
def siblingsBefore [LT K] (time : Nat → K) (x y : Nat) : Prop := time y < time x ∨ (time y = time x ∧ x < y)

theorem pair_sublist_swap {α : Type} {l : List α} (hn : l.Nodup) {x y : α} (h1 : [x, y].Sublist l) (h2 : [y, x].Sublist l) : False := by
  induction l with
  | nil => cases h1
  | cons c l ih =>
    obtain ⟨hc, hn'⟩ := List.nodup_cons.1 hn
    cases h1 with
    | cons _ h1 =>
      cases h2 with
      | cons _ h2 => exact ih hn' h1 h2
      | cons_cons _ h2 => exact hc (h1.subset (by simp))
    | cons_cons _ h1 =>
      cases h2 with
      | cons _ h2 => exact hc (h2.subset (by simp))
      | cons_cons _ h2 => exact hc (h1.subset (by simp))

theorem sorted_siblings [LinearOrder K] (time : Nat → K) (l : List Nat) (hl : l.Pairwise (· < ·)) :
    (l.mergeSort (fun a b => decide (time b ≤ time a))).Pairwise (siblingsBefore time) := by
  have hs := List.pairwise_mergeSort (le := fun a b => decide (time b ≤ time a)) (by
      intro a b c h1 h2
      simp only [decide_eq_true_eq] at h1 h2 ⊢
      exact le_trans h2 h1) (by
      intro a b
      simpa using le_total (time b) (time a)) l
  rw [List.pairwise_iff_forall_sublist] at hs ⊢
  intro x y hxy
  have hle := hs hxy
  rw [decide_eq_true_iff] at hle
  rcases lt_or_eq_of_le hle with h1 | h1
  · exact .inl h1
  · refine .inr ⟨h1, ?_⟩
    have hnd : (l.mergeSort (fun a b => decide (time b ≤ time a))).Nodup :=
      (List.mergeSort_perm l _).nodup_iff.2 (hl.imp (fun hh => by omega))
    have hxl : x ∈ l := List.mem_mergeSort.1 (hxy.subset (by simp))
    have hyl : y ∈ l := List.mem_mergeSort.1 (hxy.subset (by simp))
    have hne : x ≠ y := by
      intro e
      subst e
      have := hxy.nodup hnd
      simp at this
    rcases Nat.lt_or_gt_of_ne hne with h2 | h2
    · exact h2
    · exfalso
      have hyx : [y, x].Sublist l := by
        obtain ⟨a, b, rfl⟩ := List.append_of_mem hyl
        rcases List.mem_append.1 hxl with hx | hx
        · have := (List.pairwise_append.1 hl).2.2 x hx y List.mem_cons_self
          omega
        · rcases List.mem_cons.1 hx with rfl | hx
          · exact absurd rfl hne
          · exact List.Sublist.trans (List.Sublist.cons_cons y (List.singleton_sublist.2 hx)) (List.sublist_append_right a _)
      have := List.pair_sublist_mergeSort (le := fun a b => decide (time b ≤ time a)) (by
          intro a b c h1 h2
          simp only [decide_eq_true_eq] at h1 h2 ⊢
          exact le_trans h2 h1) (by
          intro a b
          simpa using le_total (time b) (time a)) (by simpa using le_of_eq h1.symm) hyx
      exact pair_sublist_swap hnd hxy this

/-- The children by time. -/
def PHistory.byTime [LE K] [DecidableLE K] (h : PHistory K) (time : Nat → K) (p : Option Nat) : List Nat :=
  (h.kids p).mergeSort (fun a b => decide (time b ≤ time a))

theorem PHistory.WF.printSortedOf [LinearOrder K] [Mul K] [Div K] [NatCast K] {h : PHistory K} (hw : h.WF) {name : Nat → List Nat}
    {time : Nat → K} {calls : Nat → Nat} {path : Nat → List (List Nat)}
    (hr : PReads h.frames.length h.parent h.name h.callsOf h.time name calls time path) (ds : List Nat)
    (hd : ∀ i, i < h.frames.length → ds[i]? = some ((path i).length - 1)) (total chop : K) :
    ∀ (m : Nat) (p : Option Nat), (∀ i ∈ h.kids p, h.frames.length ≤ i + m) → (∀ q, p = some q → q < h.frames.length) →
    ∃ a, PWalk (fun i => h.byTime time (some i)) (h.byTime time p) a ∧
      ∀ fuel, m + 1 ≤ fuel → h.printSortedFrom ds total chop fuel p =
        some ((a.filter (fun i => decide (chop ≤ time i * ((100 : Nat) : K) / total))).map
          (fun i => ⟨(path i).length - 1, name i, time i, calls i⟩)) := by
  intro m
  induction m with
  | zero =>
    intro p hm hp
    have hk : h.kids p = [] := by
      cases hk : h.kids p with
      | nil => rfl
      | cons a l =>
        have ha : a ∈ h.kids p := by rw [hk]; simp
        have := hm a ha
        have := PHistory.kids_lt ha
        omega
    refine ⟨[], ?_, fun fuel hf => ?_⟩
    · unfold PHistory.byTime; rw [hk]; simp; exact .nil
    · cases fuel with
      | zero => omega
      | succ fuel =>
        unfold PHistory.printSortedFrom
        rw [hw.childrenOf p hp, hk]
        simp
  | succ m ih =>
    intro p hm hp
    -- the trees below the children
    have hbelow : ∀ l : List Nat, (∀ i ∈ l, i ∈ h.kids p) → ∃ a, PWalk (fun i => h.byTime time (some i)) l a ∧ ∀ fuel, m + 1 ≤ fuel →
        (l.mapM (fun i => (ds[i]?).bind (fun d => (h.name i).bind (fun x => (h.callsOf i).bind (fun c =>
          (h.printSortedFrom ds total chop fuel (some i)).map (fun below =>
            (if chop ≤ time i * ((100 : Nat) : K) / total then [(⟨d, x, time i, c⟩ : PLine K)] else []) ++ below)))))).map List.flatten =
        some ((a.filter (fun i => decide (chop ≤ time i * ((100 : Nat) : K) / total))).map
          (fun i => ⟨(path i).length - 1, name i, time i, calls i⟩)) := by
      intro l
      induction l with
      | nil => intro _; exact ⟨[], .nil, fun _ _ => rfl⟩
      | cons i l ihl =>
        intro hl
        have hik := hl i List.mem_cons_self
        have hi := PHistory.kids_lt hik
        obtain ⟨b, hb, eb⟩ := ihl (fun j hj => hl j (List.mem_cons_of_mem _ hj))
        obtain ⟨a, ha, ea⟩ := ih (some i) (fun j hj => by
          have := hw.kids_gt hj
          have := hm i hik
          omega) (fun q hq => by cases hq; exact hi)
        refine ⟨_, .cons i l a b ha hb, fun fuel hf => ?_⟩
        have e1 := eb fuel hf
        have e2 := ea fuel hf
        rw [List.mapM_cons, hd i hi, Option.bind_some, hr.name_eq i hi, Option.bind_some, hr.calls_eq i hi, Option.bind_some, e2,
          Option.map_some]
        cases hmm : (l.mapM (fun i => (ds[i]?).bind (fun d => (h.name i).bind (fun x => (h.callsOf i).bind (fun c =>
          (h.printSortedFrom ds total chop fuel (some i)).map (fun below =>
            (if chop ≤ time i * ((100 : Nat) : K) / total then [(⟨d, x, time i, c⟩ : PLine K)] else []) ++ below)))))) with
        | none => rw [hmm] at e1; simp at e1
        | some r =>
          rw [hmm, Option.map_some, Option.some.injEq] at e1
          show some (List.flatten (_ :: r)) = _
          rw [List.flatten_cons, e1, List.filter_cons, List.filter_append]
          by_cases hch : chop ≤ time i * ((100 : Nat) : K) / total
          · rw [if_pos hch, if_pos (by simpa using hch)]
            simp
          · rw [if_neg hch, if_neg (by simpa using hch)]
            simp
    obtain ⟨a, ha, ea⟩ := hbelow (h.byTime time p) (fun i hi => List.mem_mergeSort.1 hi)
    refine ⟨a, ha, fun fuel hf => ?_⟩
    cases fuel with
    | zero => omega
    | succ fuel =>
      unfold PHistory.printSortedFrom
      rw [hw.childrenOf p hp, Option.bind_some, mapM_some_of (g := fun i => (i, time i)) (h.kids p) (fun i hi => by
        rw [hr.time_eq i (PHistory.kids_lt hi)]; rfl), Option.bind_some]
      rw [← List.map_mergeSort (r := fun a b => decide (time b ≤ time a)) (fun a _ b _ => rfl)]
      rw [← ea fuel (by omega)]
      congr 1
      unfold PHistory.byTime
      generalize (h.kids p).mergeSort _ = l
      clear ea ha hbelow
      induction l with
      | nil => rfl
      | cons i l ihl => rw [List.map_cons, List.mapM_cons, List.mapM_cons, ihl]

end OmegaH
