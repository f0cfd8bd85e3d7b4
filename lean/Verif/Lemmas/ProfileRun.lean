import Verif.Lemmas.Profile
/-!
# A run of a profiled program
-/
namespace OmegaH
open Spec

variable {K : Type}

/-- What the library does at an event. -/
def PHistory.event [Zero K] [Add K] [Sub K] (h : PHistory K) : PEvent K → Option (PHistory K)
  | .start name t => h.start name t
  | .stop t => h.stop t

/-- The open regions are those from the current frame up to a root. -/
def PHistory.OpenChain (h : PHistory K) : Option Nat → List (List (List Nat) × K) → Prop
  | c, [] => c = none
  | c, (p, t) :: rest => ∃ (i : Nat) (f : PFrame K), c = some i ∧ h.frames[i]? = some f ∧ h.HasPath i p ∧ f.startTime = t ∧
    h.OpenChain f.parent rest

theorem PHistory.OpenChain.mono {h h' : PHistory K} (hw : h.WF) (hpath : ∀ i p, h.HasPath i p → h'.HasPath i p) :
    ∀ (l : List (List (List Nat) × K)) (c : Option Nat),
    (∀ (j : Nat) f, (∃ k, c = some k ∧ j ≤ k) → h.frames[j]? = some f → ∃ f', h'.frames[j]? = some f' ∧ f'.parent = f.parent ∧
      f'.startTime = f.startTime) → h.OpenChain c l → h'.OpenChain c l := by
  intro l
  induction l with
  | nil => intro c _ hc; exact hc
  | cons a rest ih =>
    obtain ⟨p, t⟩ := a
    intro c hk hc
    obtain ⟨i, f, rfl, hf, hp, ht, hr⟩ := hc
    obtain ⟨f', hf', e1, e2⟩ := hk i f ⟨i, rfl, by omega⟩ hf
    refine ⟨i, f', rfl, hf', hpath i p hp, by rw [e2]; exact ht, ?_⟩
    rw [e1]
    refine ih f.parent (fun j g hj hg => hk j g ⟨i, rfl, ?_⟩ hg) hr
    obtain ⟨q, hq, hjq⟩ := hj
    have := hw.par i f hf q hq
    omega

/-- The state of a profiled program. -/
structure PHistory.Inv [Zero K] [Add K] (h : PHistory K) (log : PLog K) : Prop where
  wf : h.WF
  opened : h.OpenChain h.current log.opened
  records : PRecords h.frames.length h.parent h.name h.callsOf h.time log
  sub : ∀ e ∈ log.ended, e.1 ∈ log.calls

theorem PHistory.count_path {h : PHistory K} (i : Nat) (g : PFrame K → PFrame K)
    (hg : ∀ f, (g f).parent = f.parent ∧ (g f).firstChild = f.firstChild ∧ (g f).lastChild = f.lastChild ∧
      (g f).nextSibling = f.nextSibling ∧ (g f).namePtr = f.namePtr) (c : Option Nat) (hw : h.WF) (j : Nat) (p : List (List Nat)) :
    ({ h with frames := h.frames.modify i g, current := c } : PHistory K).HasPath j p ↔ h.HasPath j p := by
  have e1 : ({ h with frames := h.frames.modify i g, current := c } : PHistory K).name = h.name := funext (hw.count i g hg c).2
  have e2 : ({ h with frames := h.frames.modify i g, current := c } : PHistory K).parent = h.parent := by
    funext j
    show ((h.frames.modify i g)[j]?).map _ = (h.frames[j]?).map _
    rw [List.getElem?_modify]
    cases h.frames[j]? with
    | none => rfl
    | some f =>
      by_cases e : i = j
      · simp [e, (hg f).1]
      · simp [e]
  unfold PHistory.HasPath
  rw [e1, e2]

theorem PHistory.Inv.start [AddCommGroup K] {h : PHistory K} {log : PLog K} (hi : h.Inv log) (name : PName) (hx : 0 ∉ name) (t : K) :
    ∃ h', h.start name t = some h' ∧
      h'.Inv ⟨(log.path ++ [name], t) :: log.opened, (log.path ++ [name]) :: log.calls, log.ended⟩ := by
  obtain ⟨hw, hopen, hrec, hsub⟩ := hi
  have hcur : ∀ q, h.current = some q → q < h.frames.length ∧ h.HasPath q log.path := by
    intro q hq
    unfold PLog.path
    cases hl : log.opened with
    | nil => rw [hl] at hopen; have : h.current = none := hopen; rw [this] at hq; cases hq
    | cons a r =>
      rw [hl] at hopen
      obtain ⟨i, f, e, hf, hp, _⟩ := hopen
      rw [hq] at e
      cases e
      exact ⟨hp.lt, hp⟩
  have hcur0 : h.current = none → log.path = [] := by
    intro h0
    unfold PLog.path
    cases hl : log.opened with
    | nil => rfl
    | cons a r => rw [hl] at hopen; obtain ⟨i, f, e, _⟩ := hopen; rw [h0] at e; cases e
  obtain ⟨h1, i, f, e, hw1, hg, hf, hpf, hn, hcase⟩ := hw.foc h.current (fun q hq => (hcur q hq).1) name hx
  have hif : i < h1.frames.length := (List.getElem?_eq_some_iff.1 hf).1
  have hipath : h1.HasPath i (log.path ++ [name]) := by
    have hpar : h1.parent i = some h.current := by unfold PHistory.parent; rw [hf, Option.map_some, hpf]
    cases hc : h.current with
    | none => rw [hcur0 hc]; exact .root i name (by rw [hpar, hc]) hn
    | some q => exact .child i q name _ (by rw [hpar, hc]) hn ((hcur q hc).2.mono hg)
  let g : PFrame K → PFrame K := fun f => { f with calls := f.calls + 1, startTime := t }
  have hgk : ∀ f, (g f).parent = f.parent ∧ (g f).firstChild = f.firstChild ∧ (g f).lastChild = f.lastChild ∧
      (g f).nextSibling = f.nextSibling ∧ (g f).namePtr = f.namePtr := fun f => ⟨rfl, rfl, rfl, rfl, rfl⟩
  have hpath2 := PHistory.count_path i g hgk (some i) hw1
  obtain ⟨hw2, hname2⟩ := hw1.count i g hgk (some i)
  have hget : ∀ j : Nat, (h1.frames.modify i g)[j]? = (h1.frames[j]?).map (fun f => if i = j then g f else f) := by
    intro j
    rw [List.getElem?_modify]
    by_cases e : i = j
    · simp [e]
    · simp [e]
  refine ⟨{ h1 with frames := h1.frames.modify i g, current := some i }, ?_, hw2, ?_, ?_, fun x hx => List.mem_cons_of_mem _ (hsub x hx)⟩
  · unfold PHistory.start
    rw [e, Option.bind_some]
    unfold PHistory.modify
    dsimp only
    rw [if_pos hif]
  · refine ⟨i, g f, rfl, ?_, (hpath2 i _).2 hipath, rfl, ?_⟩
    · show (h1.frames.modify i g)[i]? = _
      rw [hget, hf, Option.map_some, if_pos rfl]
    · show PHistory.OpenChain _ f.parent log.opened
      rw [hpf]
      refine hopen.mono hw (fun j p hp => (hpath2 j p).2 (hp.mono hg)) _ _ ?_
      intro j f0 hj hf0
      obtain ⟨k, hk, hjk⟩ := hj
      have hki : k < i := hw1.par i f hf k (by rw [hpf]; exact hk)
      obtain ⟨f1, hf1, e1, _, _, e2⟩ := hg.keep j f0 hf0
      refine ⟨f1, ?_, e1, e2⟩
      show (h1.frames.modify i g)[j]? = _
      rw [hget, hf1, Option.map_some, if_neg (by omega)]
  · refine ⟨?_, ?_, fun a b p ha hb => hw2.frame_unique ha hb⟩
    · intro j hj
      have hj : j < h1.frames.length := by simpa using hj
      have hcalls : ({ h1 with frames := h1.frames.modify i g, current := some i } : PHistory K).callsOf j =
          (h1.frames[j]?).map (fun f => if i = j then f.calls + 1 else f.calls) := by
        unfold PHistory.callsOf
        show ((h1.frames.modify i g)[j]?).map _ = _
        rw [hget]
        cases h1.frames[j]? with
        | none => rfl
        | some f => by_cases e : i = j <;> simp [e, g]
      have htime : ({ h1 with frames := h1.frames.modify i g, current := some i } : PHistory K).time j =
          (h1.frames[j]?).map (fun f => f.totalRuntime) := by
        unfold PHistory.time
        show ((h1.frames.modify i g)[j]?).map _ = _
        rw [hget]
        cases h1.frames[j]? with
        | none => rfl
        | some f => by_cases e : i = j <;> simp [e, g]
      by_cases hji : j = i
      · subst hji
        refine ⟨log.path ++ [name], (hpath2 j _).2 hipath, List.mem_cons_self, ?_, ?_⟩
        · rw [hcalls, hf, Option.map_some, if_pos rfl, List.count_cons_self]
          congr 2
          rcases hcase with ⟨rfl, hlt⟩ | ⟨_, _, _, h0, hno⟩
          · obtain ⟨p, hp, _, hc, _⟩ := hrec.each j hlt
            have : p = log.path ++ [name] := PHistory.HasPath.path_unique hp hipath
            subst this
            unfold PHistory.callsOf at hc
            rw [hf, Option.map_some] at hc
            exact Option.some.inj hc
          · rw [h0]
            symm
            rw [List.count_eq_zero]
            intro hm
            obtain ⟨k, hk, hpk⟩ := hrec.all _ hm
            have := hw1.frame_unique hipath (PHistory.HasPath.mono hg hpk)
            omega
        · rw [htime, hf, Option.map_some]
          congr 1
          rcases hcase with ⟨rfl, hlt⟩ | ⟨hjn, _, h0, _, hno⟩
          · obtain ⟨p, hp, _, _, hc⟩ := hrec.each j hlt
            have : p = log.path ++ [name] := PHistory.HasPath.path_unique hp hipath
            subst this
            unfold PHistory.time at hc
            rw [hf, Option.map_some] at hc
            exact Option.some.inj hc
          · rw [h0]
            unfold PLog.duration
            rw [List.filter_eq_nil_iff.2]
            · rfl
            · intro x hx
              rw [decide_eq_true_iff]
              intro hxe
              obtain ⟨k, hk, hpk⟩ := hrec.all _ (hxe ▸ hsub x hx)
              have := hw1.frame_unique hipath (PHistory.HasPath.mono hg hpk)
              omega
      · have hjn : j < h.frames.length := by
          rcases hcase with ⟨rfl, _⟩ | ⟨hin, hl, _⟩
          · exact hj
          · omega
        obtain ⟨p, hp, hm, hc, ht⟩ := hrec.each j hjn
        have hf0 := List.getElem?_eq_getElem hjn
        obtain ⟨f1, hf1, _, e1, e2, _⟩ := hg.keep j _ hf0
        have hp1 : h1.HasPath j p := PHistory.HasPath.mono hg hp
        refine ⟨p, (hpath2 j p).2 hp1, List.mem_cons_of_mem _ hm, ?_, ?_⟩
        · rw [hcalls, hf1, Option.map_some, if_neg (fun e => hji e.symm), List.count_cons_of_ne, e2, ← hc]
          · unfold PHistory.callsOf; rw [hf0]; rfl
          · intro he
            subst he
            exact hji (hw1.frame_unique hp1 hipath)
        · rw [htime, hf1, Option.map_some, e1]
          unfold PHistory.time at ht
          rw [hf0] at ht
          exact ht
    · intro p hp
      rcases List.mem_cons.1 hp with rfl | hp
      · exact ⟨i, by simpa using hif, (hpath2 i _).2 hipath⟩
      · obtain ⟨j, hj, hpj⟩ := hrec.all p hp
        have hpj1 : h1.HasPath j p := PHistory.HasPath.mono hg hpj
        exact ⟨j, by simpa using hpj1.lt, (hpath2 j p).2 hpj1⟩

theorem PHistory.Inv.running [AddCommGroup K] {h : PHistory K} {log : PLog K} (hi : h.Inv log) (t : K) :
    h.measureTotal t = log.opened.head?.map (fun o => log.duration o.1 + (t - o.2)) := by
  obtain ⟨hw, hopen, hrec, hsub⟩ := hi
  unfold PHistory.measureTotal
  cases hl : log.opened with
  | nil => rw [hl] at hopen; rw [show h.current = none from hopen]; rfl
  | cons a r =>
    obtain ⟨p, t0⟩ := a
    rw [hl] at hopen
    obtain ⟨i, f, hc, hf, hp, ht, _⟩ := hopen
    obtain ⟨q, hq, _, _, hd⟩ := hrec.each i hp.lt
    have : q = p := PHistory.HasPath.path_unique hq hp
    subst this
    rw [hc, Option.bind_some, hf]
    unfold PHistory.time at hd
    rw [hf] at hd
    simp only [Option.map_some, Option.some.injEq] at hd
    simp [hd, ht]

theorem PHistory.Inv.stop [AddCommGroup K] {h : PHistory K} {log : PLog K} (hi : h.Inv log) (t : K) :
    match log.opened with
    | [] => h.stop t = none
    | (p, t0) :: rest => ∃ h', h.stop t = some h' ∧ h'.Inv ⟨rest, log.calls, (p, t - t0) :: log.ended⟩ := by
  have hrun := hi.running t
  obtain ⟨hw, hopen, hrec, hsub⟩ := hi
  cases hl : log.opened with
  | nil =>
    rw [hl] at hopen
    show h.stop t = none
    unfold PHistory.stop
    rw [show h.current = none from hopen]; rfl
  | cons a rest =>
    obtain ⟨p, t0⟩ := a
    rw [hl] at hopen hrun
    obtain ⟨i, f, hc, hf, hp, ht, hrest⟩ := hopen
    have hif := hp.lt
    let x : K := log.duration p + (t - t0)
    let g : PFrame K → PFrame K := fun f => { f with totalRuntime := x }
    have hgk : ∀ f, (g f).parent = f.parent ∧ (g f).firstChild = f.firstChild ∧ (g f).lastChild = f.lastChild ∧
        (g f).nextSibling = f.nextSibling ∧ (g f).namePtr = f.namePtr := fun f => ⟨rfl, rfl, rfl, rfl, rfl⟩
    have hpath2 := PHistory.count_path i g hgk f.parent hw
    obtain ⟨hw2, hname2⟩ := hw.count i g hgk f.parent
    have hget : ∀ j : Nat, (h.frames.modify i g)[j]? = (h.frames[j]?).map (fun f => if i = j then g f else f) := by
      intro j
      rw [List.getElem?_modify]
      by_cases e : i = j
      · simp [e]
      · simp [e]
    refine ⟨{ h with frames := h.frames.modify i g, current := f.parent }, ?_, hw2, ?_, ?_, ?_⟩
    · unfold PHistory.stop
      rw [hc, Option.bind_some, hrun]
      show Option.bind (some x) _ = _
      rw [Option.bind_some]
      unfold PHistory.modify
      rw [if_pos hif, Option.bind_some]
      show Option.map _ ((h.frames.modify i g)[i]?) = _
      rw [hget, hf]
      simp only [Option.map_some, if_true]
      rfl
    · refine hrest.mono hw (fun j p hp => (hpath2 j p).2 hp) _ _ ?_
      intro j f0 hj hf0
      obtain ⟨k, hk, hjk⟩ := hj
      have hki : k < i := hw.par i f hf k hk
      refine ⟨f0, ?_, rfl, rfl⟩
      show (h.frames.modify i g)[j]? = _
      rw [hget, hf0, Option.map_some, if_neg (by omega)]
    · refine ⟨?_, ?_, fun a b p ha hb => hw2.frame_unique ha hb⟩
      · intro j hj
        have hj : j < h.frames.length := by simpa using hj
        obtain ⟨q, hq, hm, hcq, htq⟩ := hrec.each j hj
        refine ⟨q, (hpath2 j q).2 hq, hm, ?_, ?_⟩
        · rw [← hcq]
          unfold PHistory.callsOf
          show ((h.frames.modify i g)[j]?).map _ = _
          rw [hget]
          cases h.frames[j]? with
          | none => rfl
          | some f => by_cases e : i = j <;> simp [e, g]
        · unfold PHistory.time at htq ⊢
          show ((h.frames.modify i g)[j]?).map _ = _
          rw [hget]
          rw [List.getElem?_eq_getElem hj] at htq ⊢
          simp only [Option.map_some, Option.some.injEq] at htq ⊢
          unfold PLog.duration
          by_cases e : i = j
          · subst e
            have : q = p := PHistory.HasPath.path_unique hq hp
            subst this
            rw [if_pos rfl, List.filter_cons, if_pos (by simp), List.map_cons, List.sum_cons]
            show log.duration q + (t - t0) = (t - t0) + _
            rw [add_comm]
            rfl
          · have hne : ¬ p = q := fun he => e (hw.frame_unique (he ▸ hp) hq)
            rw [if_neg e, List.filter_cons, if_neg (by simpa using hne), htq]
            rfl
      · intro q hq
        obtain ⟨j, hj, hpj⟩ := hrec.all q hq
        exact ⟨j, by simpa using hj, (hpath2 j q).2 hpj⟩
    · intro e he
      rcases List.mem_cons.1 he with rfl | he
      · obtain ⟨q, hq, hm, _⟩ := hrec.each i hif
        have : q = p := PHistory.HasPath.path_unique hq hp
        subst this
        exact hm
      · exact hsub e he

theorem PHistory.Inv.empty [AddCommGroup K] : (PHistory.empty : PHistory K).Inv ⟨[], [], []⟩ := by
  refine ⟨PHistory.WF.empty none none, rfl, ⟨?_, ?_, ?_⟩, ?_⟩
  · intro i hi; exact absurd hi (by simp [PHistory.empty])
  · intro p hp; simp at hp
  · intro i j p hp
    exact absurd (PHistory.HasPath.lt (h := (PHistory.empty : PHistory K)) hp) (by simp [PHistory.empty])
  · intro e he; simp at he

theorem PHistory.Inv.run [AddCommGroup K] : ∀ (es : List (PEvent K)) (h : PHistory K) (log : PLog K), h.Inv log →
    (∀ n t, PEvent.start n t ∈ es → 0 ∉ n) →
    match es.foldlM PLog.step log with
    | none => es.foldlM PHistory.event h = none
    | some log' => ∃ h', es.foldlM PHistory.event h = some h' ∧ h'.Inv log' := by
  intro es
  induction es with
  | nil => intro h log hi _; exact ⟨h, rfl, hi⟩
  | cons e es ih =>
    intro h log hi hn
    have hn' : ∀ n t, PEvent.start n t ∈ es → 0 ∉ n := fun n t hm => hn n t (List.mem_cons_of_mem _ hm)
    rw [List.foldlM_cons, List.foldlM_cons]
    cases e with
    | start name t =>
      obtain ⟨h', e1, hi'⟩ := hi.start name (hn name t List.mem_cons_self) t
      have e0 : log.step (.start name t) = some ⟨(log.path ++ [name], t) :: log.opened, (log.path ++ [name]) :: log.calls, log.ended⟩ := rfl
      rw [e0]
      have := ih h' _ hi' hn'
      rw [show (do let s ← h.event (.start name t); List.foldlM PHistory.event s es) = List.foldlM PHistory.event h' es by
        show Option.bind (h.start name t) _ = _
        rw [e1]; rfl]
      exact this
    | stop t =>
      have hst := hi.stop t
      cases hl : log.opened with
      | nil =>
        rw [hl] at hst
        have e0 : log.step (.stop t) = none := by unfold PLog.step; rw [hl]
        rw [e0]
        show Option.bind (h.stop t) _ = none
        rw [show h.stop t = none from hst]; rfl
      | cons a rest =>
        obtain ⟨p, t0⟩ := a
        rw [hl] at hst
        obtain ⟨h', e1, hi'⟩ := hst
        have e0 : log.step (.stop t) = some ⟨rest, log.calls, (p, t - t0) :: log.ended⟩ := by unfold PLog.step; rw [hl]
        rw [e0]
        rw [show (do let s ← h.event (.stop t); List.foldlM PHistory.event s es) = List.foldlM PHistory.event h' es by
          show Option.bind (h.stop t) _ = _
          rw [e1]; rfl]
        exact ih h' _ hi' hn'

end OmegaH
