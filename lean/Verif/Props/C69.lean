import Verif.Lemmas.ProfilePrint
import Mathlib.Algebra.Order.Ring.Rat
import Mathlib.Algebra.Field.Rat
/-!
# C69: the profile of a run tells how often and how long each region was called from where

Model: `Verif/Model/Profile.lean`. Specification: `Verif/Spec/Profile.lean`.
-/
namespace OmegaH
open Spec

variable {K : Type}

/-- For every sequence of region begins and ends with names without byte 0: the profiler fails exactly if a region is ended that was
not begun, and otherwise it has one entry for each call path, with the number of calls and the total duration of the calls that ended;
the running total of the innermost region is right at any time. -/
theorem C69_record [AddCommGroup K] (es : List (PEvent K)) (hn : ∀ n t, PEvent.start n t ∈ es → 0 ∉ n) :
    (es.foldlM PHistory.event (PHistory.empty : PHistory K) = none ↔ es.foldlM PLog.step (⟨[], [], []⟩ : PLog K) = none) ∧
    ∀ h log, es.foldlM PHistory.event (PHistory.empty : PHistory K) = some h → es.foldlM PLog.step ⟨[], [], []⟩ = some log →
      PRecords h.frames.length h.parent h.name h.callsOf h.time log ∧
      ∀ t, h.measureTotal t = log.opened.head?.map (fun o => log.duration o.1 + (t - o.2)) := by
  have hrun := PHistory.Inv.run es PHistory.empty _ PHistory.Inv.empty hn
  cases hs : es.foldlM PLog.step (⟨[], [], []⟩ : PLog K) with
  | none =>
    rw [hs] at hrun
    exact ⟨⟨fun _ => rfl, fun _ => hrun⟩, (fun h log _ hl => nomatch hl)⟩
  | some log =>
    rw [hs] at hrun
    obtain ⟨h, e, hi⟩ := hrun
    rw [e]
    refine ⟨⟨(fun hh => nomatch hh), (fun hh => nomatch hh)⟩, ?_⟩
    intro h' log' e1 e2
    cases e1
    cases e2
    exact ⟨hi.records, hi.running⟩

/-- `first` and `next` list the entries with a given parent in the order in which they were made. -/
theorem C69_children [AddCommGroup K] [Max K] (h : PHistory K) (hm : h.Made) (p : Option Nat) (hp : ∀ q, p = some q → q < h.frames.length) :
    h.children p = some ((List.range h.frames.length).filter (fun k => decide (h.parent k = some p))) := by
  rw [hm.wf.childrenOf p hp, PHistory.kids_eq]

/-- Iteration and `simple_print` show every entry once: an entry, then all below it, siblings in the order in which they were made; each
is indented by the number of regions around it. -/
theorem C69_print [AddCommGroup K] [Max K] (h : PHistory K) (hm : h.Made) (name : Nat → List Nat) (calls : Nat → Nat) (time : Nat → K)
    (path : Nat → List (List Nat)) (hr : PReads h.frames.length h.parent h.name h.callsOf h.time name calls time path) :
    ∃ a, h.preOrder = some a ∧ a.Perm (List.range h.frames.length) ∧
      PWalk (fun i => (List.range h.frames.length).filter (fun k => decide (h.parent k = some (some i))))
        ((List.range h.frames.length).filter (fun k => decide (h.parent k = some none))) a ∧
      h.simplePrint = some (a.map (fun i => ⟨(path i).length - 1, name i, time i, calls i⟩)) := by
  obtain ⟨a, e, hwk, hperm⟩ := hm.wf.preOrderOf
  obtain ⟨b, hwk2, _, hpr⟩ := hm.wf.printSimple hr
  have hab : ∀ {kids : Nat → List Nat} {l a b : List Nat}, PWalk kids l a → PWalk kids l b → a = b := by
    intro kids l a b ha
    induction ha generalizing b with
    | nil => intro hb; cases hb; rfl
    | cons i l a1 a2 _ _ ih1 ih2 =>
      intro hb
      cases hb with
      | cons _ _ b1 b2 hb1 hb2 => rw [ih1 hb1, ih2 hb2]
  rw [hab hwk2 hwk] at hpr
  exact ⟨a, e, hperm, hwk, hpr⟩

/-- `print_time_sorted` shows, of the same tree, every entry with at least the part `chop` (in percent) of the total, siblings by
decreasing time and with equal times in the order in which they were made. -/
theorem C69_sorted [AddCommGroup K] [LinearOrder K] [Mul K] [Div K] [NatCast K] (h : PHistory K) (hm : h.Made) (name : Nat → List Nat)
    (calls : Nat → Nat) (time : Nat → K) (path : Nat → List (List Nat))
    (hr : PReads h.frames.length h.parent h.name h.callsOf h.time name calls time path) (total chop : K) :
    ∃ (a roots : List Nat) (kids : Nat → List Nat), h.printSorted total chop =
        some ((a.filter (fun i => decide (chop ≤ time i * ((100 : Nat) : K) / total))).map
          (fun i => ⟨(path i).length - 1, name i, time i, calls i⟩)) ∧
      PWalk kids roots a ∧
      (∀ i, i ∈ roots ↔ h.parent i = some none) ∧ roots.Pairwise (siblingsBefore time) ∧
      (∀ p i, i ∈ kids p ↔ h.parent i = some (some p)) ∧ (∀ p, (kids p).Pairwise (siblingsBefore time)) := by
  obtain ⟨ds, e, _, hd⟩ := hm.wf.depthsOf hr.path_of
  obtain ⟨a, hwk, hp⟩ := hm.wf.printSortedOf hr ds hd total chop h.frames.length none (fun i _ => by omega) (fun q hq => by cases hq)
  refine ⟨a, h.byTime time none, fun i => h.byTime time (some i), ?_, hwk, ?_, ?_, ?_, ?_⟩
  · unfold PHistory.printSorted
    rw [e, Option.bind_some]
    exact hp _ (Nat.le_refl _)
  · intro i
    unfold PHistory.byTime
    rw [List.mem_mergeSort]
    exact PHistory.mem_kids_parent
  · exact sorted_siblings time _ (h.kids_sorted none)
  · intro p i
    unfold PHistory.byTime
    rw [List.mem_mergeSort]
    exact PHistory.mem_kids_parent
  · exact fun p => sorted_siblings time _ (h.kids_sorted (some p))

/-- The inverted profile ("bottom up"), whatever the members that the copy leaves uninitialised hold: it has exactly one entry for each
way in which call paths end, read from the end; its calls and its time are the sums of the calls and of the self times of the paths
that end so. -/
theorem C69_invert [AddCommGroup K] [Max K] (h : PHistory K) (hm : h.Recorded) (name : Nat → List Nat) (calls : Nat → Nat) (time : Nat → K)
    (path : Nat → List (List Nat)) (hr : PReads h.frames.length h.parent h.name h.callsOf h.time name calls time path) (c r : Option Nat) :
    ∃ inv, h.invert c r = some inv ∧
      (∀ q, (∃ i, PathOf inv.parent inv.name i q) ↔ q ≠ [] ∧ ∃ j, j < h.frames.length ∧ q.reverse <:+ path j) ∧
      (∀ i j q, PathOf inv.parent inv.name i q → PathOf inv.parent inv.name j q → i = j) ∧
      (∀ i q, PathOf inv.parent inv.name i q → inv.callsOf i = some ((endsIn h.frames.length path q).map calls).sum ∧
        inv.time i = some ((endsIn h.frames.length path q).map (selfTime h.frames.length h.parent time)).sum) := by
  obtain ⟨log, hi⟩ := hm.inv
  obtain ⟨inv, e, hw, h1, h2⟩ := hi.wf.invertOf hr c r
  refine ⟨inv, e, ?_, fun i j q ha hb => hw.frame_unique ha hb, h2⟩
  intro q
  refine (h1 q).trans (and_congr_right (fun _ => ?_))
  constructor
  · intro hne
    obtain ⟨j, hj⟩ := List.exists_mem_of_ne_nil _ hne
    unfold endsIn at hj
    rw [List.mem_filter, List.mem_range, decide_eq_true_iff] at hj
    exact ⟨j, hj⟩
  · rintro ⟨j, hj, hs⟩
    refine List.ne_nil_of_mem (a := j) ?_
    unfold endsIn
    rw [List.mem_filter, List.mem_range, decide_eq_true_iff]
    exact ⟨hj, hs⟩

/-- What the theorems on a made history need can always be read from it. -/
theorem C69_reads [AddCommGroup K] [Max K] (h : PHistory K) (hm : h.Made) : ∃ (name : Nat → List Nat) (calls : Nat → Nat) (time : Nat → K)
    (path : Nat → List (List Nat)), PReads h.frames.length h.parent h.name h.callsOf h.time name calls time path := hm.wf.reads

/-! A run: A calls B, which calls A, and then C; then B is called from outside. -/

def profileEvents : List (PEvent Rat) :=
  [.start [65] 0, .start [66] 1, .start [65] 4, .stop 9, .stop 16, .start [67] 25, .stop 36, .stop 49, .start [66] 64, .stop 81]

example : ((profileEvents.foldlM PHistory.event PHistory.empty).bind (fun h => h.simplePrint)).map
    (fun ls => ls.map (fun l => (l.depth, l.name, l.time, l.calls))) =
    some [(0, [65], 49, 1), (1, [66], 15, 1), (2, [65], 5, 1), (1, [67], 11, 1), (0, [66], 17, 1)] := by decide +kernel

example : ((profileEvents.foldlM PHistory.event PHistory.empty).bind (fun h => (h.invert (some 7) (some 9)).bind (fun i => i.simplePrint))).map
    (fun ls => ls.map (fun l => (l.depth, l.name, l.time, l.calls))) =
    some [(0, [65], 28, 2), (1, [66], 5, 1), (2, [65], 5, 1), (0, [66], 27, 2), (1, [65], 10, 1), (0, [67], 11, 1), (1, [65], 11, 1)] := by
  decide +kernel

/-- The printing and inversion theorems apply to it. -/
example : ∃ h : PHistory Rat, h.Recorded ∧ h.Made ∧ h.frames.length = 5 := by
  have h1 : ((profileEvents.foldlM PHistory.event PHistory.empty).map (fun h => h.frames.length)) = some 5 := by decide +kernel
  have hn : ∀ n t, PEvent.start n t ∈ profileEvents → 0 ∉ n := by
    intro n t h
    simp only [profileEvents, List.mem_cons, PEvent.start.injEq, List.not_mem_nil, or_false, reduceCtorEq, false_or] at h
    rcases h with ⟨rfl, _⟩ | ⟨rfl, _⟩ | ⟨rfl, _⟩ | ⟨rfl, _⟩ | ⟨rfl, _⟩ <;> decide
  cases h2 : profileEvents.foldlM PHistory.event PHistory.empty with
  | none => rw [h2] at h1; cases h1
  | some h =>
    rw [h2] at h1
    exact ⟨h, ⟨_, hn, h2⟩, .inl ⟨_, hn, h2⟩, Option.some.inj h1⟩

/-- Ending a region that was not begun is an error. -/
example : ([.start [65] 0, .stop 1, .stop 2] : List (PEvent Rat)).foldlM PHistory.event PHistory.empty = none := by decide +kernel

end OmegaH
