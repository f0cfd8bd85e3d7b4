import Verif.Model.Future

/-! # C18: polling a future -/

namespace OmegaH

/-- The communication behind a future is complete. -/
def Spec.commComplete {α : Type} (f : Fut α) : Prop := ∀ b ∈ f.done, b = true

/-- **C18 refuted.** Polling a future whose communication is still running reports completion, and
asking for the result then reads a buffer that is still being filled. -/
theorem C18_poll_refuted :
    ∃ f : Fut Nat, (∃ n, f = Fut.start n 7) ∧ ¬ Spec.commComplete f ∧
      f.poll.1 = true ∧ f.poll.2.get = .ub :=
  ⟨Fut.start 1 7, ⟨1, rfl⟩, by simp [Spec.commComplete, Fut.start], rfl, rfl⟩

/-- The answer of a poll is exactly inverted for every future that has not been polled
successfully: it is `true` if and only if some communication is still running. -/
theorem C18_poll_is_inverted {α : Type} (f : Fut α) (h : f.status = .waiting) :
    f.poll.1 = true ↔ ¬ Spec.commComplete f := by
  unfold Fut.poll
  rw [if_neg (by simp [h])]
  by_cases hd : f.done.all id
  · have : Spec.commComplete f := by simpa [Spec.commComplete] using hd
    simp [hd, this]
  · have : ¬ Spec.commComplete f := by simpa [Spec.commComplete] using hd
    simp [hd, this]

theorem C18_poll_done_stays {α : Type} (f : Fut α) (h : f.status = .waiting)
    (hc : Spec.commComplete f) : f.poll = (false, f) := by
  have hd : f.done.all id = true := by simpa [Spec.commComplete] using hc
  simp [Fut.poll, h, hd]

theorem Fut.run_cons {α : Type} (f : Fut α) (op : FutOp α) (ops : List (FutOp α)) :
    f.run (op :: ops) = (f.step op).run ops := rfl

/-- A loop that waits for `completed()` after the communication has finished never ends: every one
of any number of polls, with anything the network does in between, answers `false`. -/
theorem C18_poll_loop_never_ends {α : Type} (f : Fut α) (h : f.status = .waiting)
    (hc : Spec.commComplete f) (ops : List (FutOp α)) : (f.run ops).poll.1 = false := by
  have key : ∀ (ops : List (FutOp α)) (f : Fut α), f.status = .waiting → Spec.commComplete f →
      (f.run ops).status = .waiting ∧ Spec.commComplete (f.run ops) := by
    intro ops
    induction ops with
    | nil => intro f h hc; exact ⟨h, hc⟩
    | cons op ops ih =>
      intro f h hc
      rw [Fut.run_cons]
      apply ih
      · cases op with
        | arrive i => exact h
        | poll => simp only [Fut.step]; rw [C18_poll_done_stays f h hc]; exact h
        | addCallback c => exact h
      · cases op with
        | arrive i =>
          intro b hb
          rcases List.mem_or_eq_of_mem_set hb with hb | hb
          · exact hc b hb
          · exact hb
        | poll => simp only [Fut.step]; rw [C18_poll_done_stays f h hc]; exact hc
        | addCallback c => exact hc
  obtain ⟨h1, h2⟩ := key ops f h hc
  rw [C18_poll_done_stays _ h1 h2]

/-- **C18 (partial).** A future that is polled only after its communication is complete — in
particular one that is never polled — delivers, from `get()`, the received data after all callbacks
in the order in which they were added, whatever the network does in the meantime; and asking again
is reported as a failure. Missing: histories with an earlier poll, where the statement is false. -/
theorem C18_get_partial {α : Type} (n : Nat) (data : α) (ops : List (FutOp α))
    (hpoll : ∀ pre post, ops = pre ++ .poll :: post →
      Spec.commComplete ((Fut.start n data).run pre)) :
    ∃ f', ((Fut.start n data).run ops).get =
        .ok ((FutOp.callbacks ops).foldl (fun x c => c x) data, f') ∧ f'.get = .fail := by
  have key : ∀ (ops : List (FutOp α)) (f : Fut α), f.status = .waiting →
      (∀ pre post, ops = pre ++ .poll :: post → Spec.commComplete (f.run pre)) →
      (f.run ops).status = .waiting ∧ (f.run ops).data = f.data ∧
      (f.run ops).callback f.data = (FutOp.callbacks ops).foldl (fun x c => c x) (f.callback f.data) := by
    intro ops
    induction ops with
    | nil => intro f h _; exact ⟨h, rfl, rfl⟩
    | cons op ops ih =>
      intro f h hp
      rw [Fut.run_cons]
      have hp' : ∀ pre post, ops = pre ++ .poll :: post → Spec.commComplete ((f.step op).run pre) := by
        intro pre post e
        exact hp (op :: pre) post (by rw [e]; rfl)
      cases op with
      | arrive i => exact ih (f.arrive i) h hp'
      | poll =>
        have hc : Spec.commComplete f := hp [] ops rfl
        have e : f.step .poll = f := by simp only [Fut.step]; rw [C18_poll_done_stays f h hc]
        rw [e] at hp' ⊢
        exact ih f h hp'
      | addCallback c => exact ih (f.addCallback c) h hp'
  obtain ⟨h1, h2, h3⟩ := key ops (Fut.start n data) rfl hpoll
  generalize (Fut.start n data).run ops = f at *
  refine ⟨{ f with done := f.done.map (fun _ => true), status := .consumed }, ?_, rfl⟩
  unfold Fut.get
  rw [h1]
  unfold Fut.read
  simp only
  rw [if_pos (by simp), h2]
  simp only [Fut.start] at h3 ⊢
  rw [h3]
  rfl

/-- A history with arrivals, callbacks and a late poll. -/
example : ((Fut.start 2 5).run [.addCallback (· + 1), .arrive 0, .arrive 1, .poll,
      .addCallback (· * 10)]).get =
    .ok (60, { (Fut.start 2 5).run [.addCallback (· + 1), .arrive 0, .arrive 1, .poll,
      .addCallback (· * 10)] with status := .consumed }) := rfl

example : Spec.commComplete ((Fut.start 2 5).run [.addCallback (· + 1), .arrive 0, .arrive 1]) := by
  simp [Spec.commComplete, Fut.run, Fut.step, Fut.arrive, Fut.start, Fut.addCallback]

/-- A future without communication answers `true` and gives its data. -/
theorem C18_ready {α : Type} (data : α) :
    (Fut.ready data).poll = (true, Fut.ready data) ∧ ∃ f', (Fut.ready data).get = .ok (data, f') :=
  ⟨rfl, _, rfl⟩

end OmegaH
