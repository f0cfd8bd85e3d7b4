import Verif.Props.C69
import Verif.Lemmas.ProfileTop
import Mathlib.Data.List.Nodup
import Mathlib.Algebra.Order.Ring.Rat
/-!
# C70: the table of top functions over all ranks

Model: `Verif/Model/Profile.lean`. Specification: `Verif/Spec/Profile.lean`.
-/
namespace OmegaH
open Spec

variable {K : Type}

/-- On each rank the table has one row for each name of a region that ran there, with the sum of the self times of all calls of regions
with that name. -/
theorem C70_gather [AddCommGroup K] [Max K] (h : PHistory K) (hm : h.Recorded) (name : Nat → List Nat) (calls : Nat → Nat) (time : Nat → K)
    (path : Nat → List (List Nat)) (hr : PReads h.frames.length h.parent h.name h.callsOf h.time name calls time path) (c r : Option Nat) :
    ∃ inv rows, h.invert c r = some inv ∧ inv.topGather = some rows ∧ (rows.map TopRow.name).Nodup ∧
      (∀ x, x ∈ rows.map TopRow.name ↔ ∃ i, i < h.frames.length ∧ h.name i = some x) ∧
      ∀ row ∈ rows, 0 ∉ row.name ∧ row.min = row.ave ∧ row.max = row.ave ∧
        row.ave = (((List.range h.frames.length).filter (fun i => decide (h.name i = some row.name))).map
          (selfTime h.frames.length h.parent time)).sum := by
  obtain ⟨log, hi⟩ := hm.inv
  obtain ⟨inv, e, hw, h1, h2⟩ := hi.wf.invertOf hr c r
  obtain ⟨iname, icalls, itime, ipath, hir⟩ := hw.reads
  have hg := hw.topGatherOf hir.name_eq hir.time_eq
  -- a path ends in a name exactly if the entry has that name
  have hend : ∀ i, i < h.frames.length → ∀ x, [x].reverse <:+ path i ↔ h.name i = some x := by
    intro i hil x
    have hp := hr.path_of i hil
    generalize path i = P at hp
    have hlast : ∀ (Q : List (List Nat)) (y : List Nat), [x].reverse <:+ Q ++ [y] ↔ y = x := by
      intro Q y
      constructor
      · rintro ⟨t, ht⟩
        have := (List.append_inj' ht rfl).2
        simpa using this.symm
      · rintro rfl; exact ⟨Q, rfl⟩
    cases hp with
    | root _ y a b => rw [b]; have := hlast [] y; simpa using this
    | child _ j y Q a b _ => rw [b, hlast]; simp
  have hends : ∀ x, endsIn h.frames.length path [x] = (List.range h.frames.length).filter (fun i => decide (h.name i = some x)) := by
    intro x
    unfold endsIn
    refine List.filter_congr (fun i hi => ?_)
    have := hend i (List.mem_range.1 hi) x
    by_cases hh : h.name i = some x
    · simp only [hh, decide_true, decide_eq_true_iff]; exact this.2 hh
    · simp only [hh, decide_false, decide_eq_false_iff_not]; exact fun h' => hh (this.1 h')
  -- roots of the inverse
  have hroot : ∀ i ∈ inv.kids none, inv.HasPath i [iname i] := by
    intro i hk
    exact .root i _ (PHistory.mem_kids_parent.1 hk) (hir.name_eq i (PHistory.kids_lt hk))
  refine ⟨inv, _, e, hg, ?_, ?_, ?_⟩
  · rw [List.map_map]
    refine List.Nodup.map_on (f := fun i => iname i) ?_ ((inv.kids_sorted none).imp (fun hh => by omega))
    intro i hi j hj hij
    have h1 := hroot i hi
    have h2 := hroot j hj
    rw [← hij] at h2
    exact hw.frame_unique h1 h2
  · intro x
    rw [List.map_map]
    have hh := h1 [x]
    rw [hends] at hh
    constructor
    · intro hx
      obtain ⟨i, hi, rfl⟩ := List.mem_map.1 hx
      obtain ⟨_, hne⟩ := hh.1 ⟨i, hroot i hi⟩
      obtain ⟨j, hj⟩ := List.exists_mem_of_ne_nil _ hne
      rw [List.mem_filter, List.mem_range, decide_eq_true_iff] at hj
      exact ⟨j, hj⟩
    · rintro ⟨j, hj, hx⟩
      obtain ⟨i, hi⟩ := hh.2 ⟨by simp, List.ne_nil_of_mem (a := j) (by
        rw [List.mem_filter, List.mem_range, decide_eq_true_iff]; exact ⟨hj, hx⟩)⟩
      refine List.mem_map.2 ⟨i, ?_, ?_⟩
      · generalize hq : [x] = q at hi
        cases hi with
        | root _ _ a _ => exact PHistory.mem_kids_parent.2 a
        | child _ k y Q _ _ c =>
          have := PHistory.HasPath.ne_nil (h := inv) c
          cases Q with
          | nil => exact absurd rfl this
          | cons _ _ => simp at hq
      · have hl := PHistory.HasPath.lt (h := inv) hi
        have hn := hir.name_eq i hl
        generalize hq : [x] = q at hi
        cases hi with
        | root _ y a b => rw [hn] at b; cases hq; simpa using b
        | child _ k y Q _ _ c =>
          have := PHistory.HasPath.ne_nil (h := inv) c
          cases Q with
          | nil => exact absurd rfl this
          | cons _ _ => simp at hq
  · intro row hrow
    obtain ⟨i, hi, rfl⟩ := List.mem_map.1 hrow
    refine ⟨PHistory.name_nonzero (hir.name_eq i (PHistory.kids_lt hi)), rfl, rfl, ?_⟩
    have := (h2 i _ (hroot i hi)).2
    rw [hir.time_eq i (PHistory.kids_lt hi), hends] at this
    exact Option.some.inj this

/-- What the table on rank 0 should hold: one row for each name on any rank, with the sum of the values of all ranks over the number of
ranks, the least and the greatest value of the ranks that have the name. -/
structure TopTable [Field K] [LinearOrder K] (tables : List (List (TopRow K))) (rows : List (TopRow K)) : Prop where
  once : (rows.map TopRow.name).Nodup
  names : ∀ x, x ∈ rows.map TopRow.name ↔ ∃ t ∈ tables, x ∈ t.map TopRow.name
  ave : ∀ r ∈ rows, r.ave = ((tables.flatten.filter (fun e => decide (e.name = r.name))).map TopRow.ave).sum / ((tables.length : Nat) : K)
  min : ∀ r ∈ rows, (∃ t ∈ tables, ∃ e ∈ t, e.name = r.name ∧ e.ave = r.min) ∧ ∀ t ∈ tables, ∀ e ∈ t, e.name = r.name → r.min ≤ e.ave
  max : ∀ r ∈ rows, (∃ t ∈ tables, ∃ e ∈ t, e.name = r.name ∧ e.ave = r.max) ∧ ∀ t ∈ tables, ∀ e ∈ t, e.name = r.name → e.ave ≤ r.max

/-- The table of a rank as `C70_gather` describes it. -/
structure RankTable (t : List (TopRow K)) : Prop where
  once : (t.map TopRow.name).Nodup
  chars : ∀ r ∈ t, 0 ∉ r.name
  single : ∀ r ∈ t, r.min = r.ave ∧ r.max = r.ave

/-- Full statement: every table is collected. It fails: see `C70_collect_refuted`. What holds: the collection succeeds exactly if every
name that occurs on some rank occurs on rank 0, and then the table is right. -/
theorem C70_collect_partial [Field K] [LinearOrder K] (mine : List (TopRow K)) (others : List (List (TopRow K)))
    (h0 : RankTable mine) (hs : ∀ t ∈ others, RankTable t) :
    (topCollect mine others = none ↔ ∃ t ∈ others, ∃ x ∈ t.map TopRow.name, x ∉ mine.map TopRow.name) ∧
    ∀ rows, topCollect mine others = some rows → TopTable (mine :: others) rows := by
  have hnames : ∀ e ∈ others.flatMap topEntries, ∃ t ∈ others, ∃ r ∈ t, e = (r.name, r.ave) := by
    intro e he
    obtain ⟨t, ht, he⟩ := List.mem_flatMap.1 he
    obtain ⟨r, hr, rfl⟩ := List.mem_map.1 he
    exact ⟨t, ht, r, hr, rfl⟩
  unfold topCollect
  rw [topReceive_fold others mine (fun t ht r hr => (hs t ht).chars r hr), topAdd_fold]
  by_cases hall : ∀ e ∈ others.flatMap topEntries, e.1 ∈ mine.map TopRow.name
  · rw [if_pos hall]
    refine ⟨⟨(fun hh => nomatch hh), ?_⟩, ?_⟩
    · rintro ⟨t, ht, x, hx, hnot⟩
      obtain ⟨r, hr, rfl⟩ := List.mem_map.1 hx
      exact absurd (hall (r.name, r.ave) (List.mem_flatMap.2 ⟨t, ht, List.mem_map.2 ⟨r, hr, rfl⟩⟩)) hnot
    · intro rows hrows
      cases hrows
      dsimp only
      rw [List.map_map]
      have hnm : (mine.map ((fun r : TopRow K => { r with ave := r.ave / ((others.length + 1 : Nat) : K) }) ∘
          (fun r => (others.flatMap topEntries).foldl rowAdd r))).map TopRow.name = mine.map TopRow.name := by
        rw [List.map_map]
        exact List.map_congr_left (fun r _ => rowAdd_fold_name _ r)
      -- the values of a name on the other ranks
      have hvals : ∀ x v, v ∈ valuesOf (others.flatMap topEntries) x ↔ ∃ t ∈ others, ∃ e ∈ t, e.name = x ∧ e.ave = v := by
        intro x v
        unfold valuesOf
        rw [List.mem_map]
        constructor
        · rintro ⟨e, he, rfl⟩
          rw [List.mem_filter, decide_eq_true_iff] at he
          obtain ⟨t, ht, r, hr, rfl⟩ := hnames e he.1
          exact ⟨t, ht, r, hr, he.2, rfl⟩
        · rintro ⟨t, ht, r, hr, h1, h2⟩
          refine ⟨(r.name, r.ave), ?_, h2⟩
          rw [List.mem_filter, decide_eq_true_iff]
          exact ⟨List.mem_flatMap.2 ⟨t, ht, List.mem_map.2 ⟨r, hr, rfl⟩⟩, h1⟩
      have hsum : ∀ x, (valuesOf (others.flatMap topEntries) x).sum =
          ((others.flatten.filter (fun e => decide (e.name = x))).map TopRow.ave).sum := by
        intro x
        congr 1
        unfold valuesOf
        clear hvals hnm hall hnames hs h0
        induction others with
        | nil => rfl
        | cons t others ih =>
          rw [List.flatMap_cons, List.filter_append, List.map_append, ih, List.flatten_cons, List.filter_append, List.map_append]
          congr 1
          unfold topEntries
          rw [List.filter_map, List.map_map]
          rfl
      -- the row of a name on rank 0
      have huniq : ∀ r ∈ mine, ∀ e ∈ mine, e.name = r.name → e = r := by
        intro r hr e he hh
        exact List.inj_on_of_nodup_map h0.once he hr hh
      have hself : ∀ r ∈ mine, (mine.filter (fun e => decide (e.name = r.name))) = [r] := by
        intro r hr
        have hnd : mine.Nodup := List.Nodup.of_map _ h0.once
        have : (mine.filter (fun e => decide (e.name = r.name))).Perm [r] := by
          rw [List.perm_ext_iff_of_nodup (hnd.filter _) (List.nodup_singleton r)]
          intro e
          rw [List.mem_filter, decide_eq_true_iff, List.mem_singleton]
          exact ⟨fun hh => huniq r hr e hh.1 hh.2, fun hh => by subst hh; exact ⟨hr, rfl⟩⟩
        exact List.perm_singleton.1 this
      refine ⟨by rw [hnm]; exact h0.once, ?_, ?_, ?_, ?_⟩
      · intro x
        rw [hnm]
        constructor
        · intro hx; exact ⟨mine, List.mem_cons_self, hx⟩
        · rintro ⟨t, ht, hx⟩
          rcases List.mem_cons.1 ht with rfl | ht
          · exact hx
          · obtain ⟨r, hr, rfl⟩ := List.mem_map.1 hx
            exact hall (r.name, r.ave) (List.mem_flatMap.2 ⟨t, ht, List.mem_map.2 ⟨r, hr, rfl⟩⟩)
      · intro row hrow
        obtain ⟨r, hr, rfl⟩ := List.mem_map.1 hrow
        obtain ⟨a1, _⟩ := rowAdd_fold (others.flatMap topEntries) r
        have hnr := rowAdd_fold_name (others.flatMap topEntries) r
        have key : (((mine :: others).flatten.filter (fun e => decide (e.name = r.name))).map TopRow.ave).sum =
            ((others.flatMap topEntries).foldl rowAdd r).ave := by
          rw [a1, hsum, List.flatten_cons, List.filter_append, hself r hr, List.map_append, List.sum_append]
          simp
        have hf : (fun e : TopRow K => decide (e.name = ((others.flatMap topEntries).foldl rowAdd r).name)) =
            fun e => decide (e.name = r.name) := by
          funext e
          simp only [hnr]
        show ((others.flatMap topEntries).foldl rowAdd r).ave / _ = (((mine :: others).flatten.filter
          (fun e : TopRow K => decide (e.name = ((others.flatMap topEntries).foldl rowAdd r).name))).map TopRow.ave).sum / _
        rw [hf, key]
        rfl
      · intro row hrow
        obtain ⟨r, hr, rfl⟩ := List.mem_map.1 hrow
        obtain ⟨_, a2, a3, a4, _⟩ := rowAdd_fold (others.flatMap topEntries) r
        dsimp only [Function.comp]
        rw [rowAdd_fold_name]
        rw [(h0.single r hr).1] at a2 a3
        refine ⟨?_, ?_⟩
        · rcases a2 with a2 | a2
          · exact ⟨mine, List.mem_cons_self, r, hr, rfl, a2.symm⟩
          · obtain ⟨t, ht, e, he, h1, h2⟩ := (hvals _ _).1 a2
            exact ⟨t, List.mem_cons_of_mem _ ht, e, he, h1, h2⟩
        · intro t ht e he hn
          rcases List.mem_cons.1 ht with rfl | ht
          · rw [huniq r hr e he hn]; exact a3
          · exact a4 _ ((hvals _ _).2 ⟨t, ht, e, he, hn, rfl⟩)
      · intro row hrow
        obtain ⟨r, hr, rfl⟩ := List.mem_map.1 hrow
        obtain ⟨_, _, _, _, a2, a3, a4⟩ := rowAdd_fold (others.flatMap topEntries) r
        dsimp only [Function.comp]
        rw [rowAdd_fold_name]
        rw [(h0.single r hr).2] at a2 a3
        refine ⟨?_, ?_⟩
        · rcases a2 with a2 | a2
          · exact ⟨mine, List.mem_cons_self, r, hr, rfl, a2.symm⟩
          · obtain ⟨t, ht, e, he, h1, h2⟩ := (hvals _ _).1 a2
            exact ⟨t, List.mem_cons_of_mem _ ht, e, he, h1, h2⟩
        · intro t ht e he hn
          rcases List.mem_cons.1 ht with rfl | ht
          · rw [huniq r hr e he hn]; exact a3
          · exact a4 _ ((hvals _ _).2 ⟨t, ht, e, he, hn, rfl⟩)
  · rw [if_neg hall]
    refine ⟨⟨fun _ => ?_, fun _ => rfl⟩, (fun rows hh => nomatch hh)⟩
    obtain ⟨e, he⟩ := Classical.not_forall.1 hall
    obtain ⟨he, hnot⟩ := Classical.not_imp.1 he
    obtain ⟨t, ht, r, hr, rfl⟩ := hnames e he
    exact ⟨t, ht, r.name, List.mem_map.2 ⟨r, hr, rfl⟩, hnot⟩

/-- What rank `r` of a job did, and its table. -/
def topTableOf (es : List (PEvent Rat)) : Option (List (TopRow Rat)) :=
  (es.foldlM PHistory.event PHistory.empty).bind (fun h => (h.invert none none).bind (fun i => i.topGather))

/-- Two ranks: rank 0 runs region A, rank 1 runs region B. Printing the table is undefined: rank 0 indexes an empty vector. -/
theorem C70_collect_refuted : ∃ (es0 es1 : List (PEvent Rat)) (t0 t1 : List (TopRow Rat)), topTableOf es0 = some t0 ∧ topTableOf es1 = some t1 ∧
    topCollect t0 [t1] = none := by
  refine ⟨[.start [65] 0, .stop 1], [.start [66] 0, .stop 1], [⟨[65], 1, 1, 1⟩], [⟨[66], 1, 1, 1⟩], ?_, ?_, ?_⟩
  · decide +kernel
  · decide +kernel
  · decide +kernel

/-- Three ranks with the same regions, one of which did not run on rank 2. -/
example : RankTable ([⟨[65], 5, 5, 5⟩, ⟨[66], 2, 2, 2⟩] : List (TopRow Rat)) ∧ RankTable ([⟨[66], 4, 4, 4⟩, ⟨[65], 1, 1, 1⟩] : List (TopRow Rat)) ∧
    RankTable ([⟨[65], 3, 3, 3⟩] : List (TopRow Rat)) := by
  refine ⟨⟨?_, ?_, ?_⟩, ⟨?_, ?_, ?_⟩, ⟨?_, ?_, ?_⟩⟩ <;> simp

example : topCollect ([⟨[65], 5, 5, 5⟩, ⟨[66], 2, 2, 2⟩] : List (TopRow Rat)) [[⟨[66], 4, 4, 4⟩, ⟨[65], 1, 1, 1⟩], [⟨[65], 3, 3, 3⟩]] =
    some [⟨[65], 3, 1, 5⟩, ⟨[66], 2, 2, 4⟩] := by decide +kernel

example : topTableOf profileEvents = some [⟨[65], 28, 28, 28⟩, ⟨[66], 27, 27, 27⟩, ⟨[67], 11, 11, 11⟩] := by decide +kernel

end OmegaH
