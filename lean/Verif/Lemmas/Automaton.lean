import Verif.Model.Automaton
import Verif.Spec.Automaton
import Verif.Props.C39

/-! # Automata: the effect of each operation on the table and on the edges -/

namespace OmegaH
open Spec

theorem faCell_lt {fa : FA} (h : FATable fa) {s c : Nat} {v : Int} (hc : fa.cell s c = some v) : s < fa.nstates ∧ c < fa.ncols := by
  unfold FA.cell at hc
  obtain ⟨row, h1, h2⟩ := Option.bind_eq_some_iff.1 hc
  refine ⟨(List.getElem?_eq_some_iff.1 h1).1, ?_⟩
  rw [← h.rows s row h1]
  exact (List.getElem?_eq_some_iff.1 h2).1

theorem cell_some {fa : FA} (h : FATable fa) {s c : Nat} (hs : s < fa.nstates) (hc : c < fa.ncols) : ∃ v, fa.cell s c = some v := by
  obtain ⟨row, hr⟩ : ∃ row, fa.table[s]? = some row := ⟨_, List.getElem?_eq_getElem hs⟩
  have := h.rows s row hr
  refine ⟨row[c], ?_⟩
  unfold FA.cell
  rw [hr, Option.bind_some, List.getElem?_eq_getElem]

theorem faEmpty_table (nsym : Nat) (det : Bool) (h : 0 < (faEmpty nsym det).ncols) : FATable (faEmpty nsym det) := by
  refine ⟨h, ?_, rfl, ?_, ?_⟩
  · intro s row hr; cases hr
  · intro s c v hv
    unfold FA.cell at hv
    rw [show (faEmpty nsym det).table[s]? = none from rfl] at hv
    cases hv
  · intro s v hv; cases hv

theorem faAddState_spec {fa : FA} (h : FATable fa) : ∃ out, faAddState fa = some out ∧ FATable out ∧ out.nsym = fa.nsym ∧ out.det = fa.det ∧
    out.nstates = fa.nstates + 1 ∧ out.accepted = fa.accepted ++ [-1] ∧
    ∀ s c, out.cell s c = if s = fa.nstates then (if c < fa.ncols then some (-1) else none) else fa.cell s c := by
  let out : FA := { fa with table := fa.table ++ [List.replicate fa.ncols (-1)], accepted := fa.accepted ++ [-1] }
  have hcell : ∀ s c, out.cell s c = if s = fa.nstates then (if c < fa.ncols then some (-1) else none) else fa.cell s c := by
    intro s c
    show ((fa.table ++ [List.replicate fa.ncols (-1)])[s]?).bind _ = _
    by_cases hs : s = fa.nstates
    · subst hs
      rw [if_pos rfl, show (fa.table ++ [List.replicate fa.ncols (-1)])[fa.nstates]? = some (List.replicate fa.ncols (-1)) from
        List.getElem?_concat_length, Option.bind_some, List.getElem?_replicate]
    · rw [if_neg hs]
      unfold FA.cell
      by_cases hl : s < fa.table.length
      · rw [List.getElem?_append_left hl]
      · have hs' : fa.table.length < s := by unfold FA.nstates at hs; omega
        rw [List.getElem?_eq_none (by simp; omega), List.getElem?_eq_none (by omega)]
  have hn : out.nstates = fa.nstates + 1 := by show (fa.table ++ [_]).length = _; rw [List.length_append]; rfl
  refine ⟨out, ?_, ⟨h.cols, ?_, ?_, ?_, ?_⟩, rfl, rfl, hn, rfl, hcell⟩
  · unfold faAddState; rw [if_pos h.cols]
  · intro s row hr
    have hr' : (fa.table ++ [List.replicate fa.ncols (-1)])[s]? = some row := hr
    rcases List.mem_append.1 (List.mem_of_getElem? hr') with hm | hm
    · obtain ⟨i, hi⟩ := List.getElem?_of_mem hm
      exact h.rows i row hi
    · rw [List.mem_singleton.1 hm, List.length_replicate]; rfl
  · show (fa.accepted ++ [-1]).length = _
    rw [List.length_append, hn, h.acc]
    rfl
  · intro s c v hv
    rw [hcell] at hv
    split at hv
    · split at hv
      · left; exact (Option.some.inj hv).symm
      · cases hv
    · rcases h.cells s c v hv with h | h
      · exact Or.inl h
      · right; rw [hn]; omega
  · intro s v hv
    have hv' : (fa.accepted ++ [-1])[s]? = some v := hv
    rcases List.mem_append.1 (List.mem_of_getElem? hv') with hm | hm
    · obtain ⟨i, hi⟩ := List.getElem?_of_mem hm
      exact h.toks i v hi
    · rw [List.mem_singleton.1 hm]

theorem faAddTransition_spec {fa : FA} (h : FATable fa) {f c t : Nat} (ht : t < fa.nstates) (hfree : fa.cell f c = some (-1)) :
    ∃ out, faAddTransition fa f c t = some out ∧ FATable out ∧ out.nsym = fa.nsym ∧ out.det = fa.det ∧ out.nstates = fa.nstates ∧
      out.accepted = fa.accepted ∧ ∀ s d, out.cell s d = if s = f ∧ d = c then some (t : Int) else fa.cell s d := by
  obtain ⟨hf, hc⟩ := faCell_lt h hfree
  obtain ⟨row, hr, hrc⟩ := Option.bind_eq_some_iff.1 hfree
  let out : FA := { fa with table := fa.table.set f (row.set c (t : Int)) }
  have hcell : ∀ s d, out.cell s d = if s = f ∧ d = c then some (t : Int) else fa.cell s d := by
    intro s d
    show ((fa.table.set f (row.set c (t : Int)))[s]?).bind _ = _
    rw [List.getElem?_set]
    by_cases hs : f = s
    · subst hs
      have hf' : f < fa.table.length := hf
      rw [if_pos rfl, if_pos hf', Option.bind_some, List.getElem?_set]
      unfold FA.cell
      rw [hr, Option.bind_some]
      by_cases hd : c = d
      · subst hd
        rw [if_pos rfl, if_pos (List.getElem?_eq_some_iff.1 hrc).1, if_pos ⟨rfl, rfl⟩]
      · rw [if_neg hd, if_neg (by intro e; exact hd e.2.symm)]
    · rw [if_neg hs, if_neg (by intro e; exact hs e.1.symm)]
      rfl
  have hn : out.nstates = fa.nstates := by show (fa.table.set _ _).length = _; rw [List.length_set]; rfl
  refine ⟨out, ?_, ⟨h.cols, ?_, ?_, ?_, h.toks⟩, rfl, rfl, hn, rfl, hcell⟩
  · unfold faAddTransition
    rw [if_pos ⟨ht, hc⟩, hr, Option.bind_some, hrc, Option.bind_some, if_pos rfl]
  · intro s r hs
    have hs' : (fa.table.set f (row.set c (t : Int)))[s]? = some r := hs
    rw [List.getElem?_set] at hs'
    split at hs'
    · split at hs'
      · rw [← Option.some.inj hs', List.length_set]; exact h.rows f row hr
      · cases hs'
    · exact h.rows s r hs'
  · rw [hn]; exact h.acc
  · intro s d v hv
    rw [hcell] at hv
    rw [hn]
    split at hv
    · right; have := Option.some.inj hv; omega
    · exact h.cells s d v hv

theorem faAddAccept_spec {fa : FA} (h : FATable fa) {s : Nat} {token : Int} (ht : 0 ≤ token) (hs : s < fa.nstates) :
    ∃ out, faAddAccept fa s token = some out ∧ FATable out ∧ out.nsym = fa.nsym ∧ out.det = fa.det ∧ out.nstates = fa.nstates ∧
      out.accepted = fa.accepted.set s token ∧ ∀ s d, out.cell s d = fa.cell s d := by
  have hl : s < fa.accepted.length := by rw [h.acc]; exact hs
  refine ⟨{ fa with accepted := fa.accepted.set s token }, ?_, ⟨h.cols, h.rows, ?_, h.cells, ?_⟩, rfl, rfl, rfl, rfl, fun _ _ => rfl⟩
  · unfold faAddAccept; rw [if_pos ⟨ht, hl⟩]
  · show (fa.accepted.set s token).length = _
    rw [List.length_set]; exact h.acc
  · intro i v hv
    have hv' : (fa.accepted.set s token)[i]? = some v := hv
    rw [List.getElem?_set] at hv'
    by_cases e : s = i
    · rw [if_pos e, if_pos hl] at hv'
      have := Option.some.inj hv'; omega
    · rw [if_neg e] at hv'; exact h.toks i v hv'

theorem faRemoveAccept_spec {fa : FA} (h : FATable fa) {s : Nat} (hs : s < fa.nstates) :
    ∃ out, faRemoveAccept fa s = some out ∧ FATable out ∧ out.nsym = fa.nsym ∧ out.det = fa.det ∧ out.nstates = fa.nstates ∧
      out.accepted = fa.accepted.set s (-1) ∧ ∀ s d, out.cell s d = fa.cell s d := by
  have hl : s < fa.accepted.length := by rw [h.acc]; exact hs
  refine ⟨{ fa with accepted := fa.accepted.set s (-1) }, ?_, ⟨h.cols, h.rows, ?_, h.cells, ?_⟩, rfl, rfl, rfl, rfl, fun _ _ => rfl⟩
  · unfold faRemoveAccept; rw [if_pos hl]
  · show (fa.accepted.set s (-1)).length = _
    rw [List.length_set]; exact h.acc
  · intro i v hv
    have hv' : (fa.accepted.set s (-1))[i]? = some v := hv
    rw [List.getElem?_set] at hv'
    by_cases e : s = i
    · rw [if_pos e, if_pos hl] at hv'
      have := Option.some.inj hv'; omega
    · rw [if_neg e] at hv'; exact h.toks i v hv'

/-- A target of the second automaton, seen in the first. -/
def shiftCell (n : Nat) (v : Int) : Int := if v < 0 then -1 else v + n

theorem ncols_le {fa other : FA} (hs : other.nsym = fa.nsym) (hd : ¬ (other.det = false ∧ fa.det = true)) : other.ncols ≤ fa.ncols := by
  unfold FA.ncols
  rw [hs]
  cases h1 : other.det <;> cases h2 : fa.det <;> simp_all

theorem ncols_congr {fa out : FA} (hs : out.nsym = fa.nsym) (hd : out.det = fa.det) : out.ncols = fa.ncols := by
  unfold FA.ncols; rw [hs, hd]

theorem faAppend_spec {fa other : FA} (h : FATable fa) (ho : FATable other) (hs : other.nsym = fa.nsym)
    (hd : ¬ (other.det = false ∧ fa.det = true)) :
    ∃ out, faAppend fa other = some out ∧ FATable out ∧ out.nsym = fa.nsym ∧ out.det = fa.det ∧
      out.nstates = fa.nstates + other.nstates ∧ out.accepted = fa.accepted ++ other.accepted ∧
      ∀ s c, out.cell s c = if s < fa.nstates then fa.cell s c else
        if c < other.ncols then (other.cell (s - fa.nstates) c).map (shiftCell fa.nstates) else
        if s < fa.nstates + other.nstates ∧ c < fa.ncols then some (-1) else none := by
  have hle := ncols_le hs hd
  obtain ⟨o1, l1, i1⟩ := foldlM_range (fun (out : FA) s =>
      (faAddState out).bind (fun out' => (faAccepts other s).bind (fun token =>
        if 0 ≤ token then faAddAccept out' out.nstates token else some out')))
    (fun k out => FATable out ∧ out.nsym = fa.nsym ∧ out.det = fa.det ∧ out.nstates = fa.nstates + k ∧
      out.accepted = fa.accepted ++ other.accepted.take k ∧
      ∀ s c, out.cell s c = if s < fa.nstates then fa.cell s c else if s < fa.nstates + k ∧ c < fa.ncols then some (-1) else none)
    other.nstates fa (by
      refine ⟨h, rfl, rfl, rfl, by simp, ?_⟩
      intro s c
      by_cases hl : s < fa.nstates
      · rw [if_pos hl]
      · rw [if_neg hl, if_neg (by omega)]
        cases hc : fa.cell s c with
        | none => rfl
        | some v => exact absurd (faCell_lt h hc).1 hl) (by
      rintro k hk out ⟨t1, t2, t3, t4, t5, t6⟩
      obtain ⟨o', e1, e2, e3, e4, e5, e6, e7⟩ := faAddState_spec t1
      have hkl : k < other.accepted.length := by rw [ho.acc]; exact hk
      have hcols : out.ncols = fa.ncols := ncols_congr t2 t3
      have htok : faAccepts other k = some other.accepted[k] := List.getElem?_eq_getElem hkl
      have hcell : ∀ s c, o'.cell s c = if s < fa.nstates then fa.cell s c else if s < fa.nstates + (k + 1) ∧ c < fa.ncols then some (-1) else none := by
        intro s c
        rw [e7, t4, t6, hcols]
        by_cases a1 : s = fa.nstates + k
        · subst a1
          rw [if_pos rfl, if_neg (show ¬ fa.nstates + k < fa.nstates by omega)]
          by_cases a2 : c < fa.ncols
          · rw [if_pos a2, if_pos ⟨by omega, a2⟩]
          · rw [if_neg a2, if_neg (by omega)]
        · rw [if_neg a1]
          by_cases a2 : s < fa.nstates
          · rw [if_pos a2, if_pos a2]
          · rw [if_neg a2, if_neg a2]
            by_cases a3 : s < fa.nstates + k ∧ c < fa.ncols
            · rw [if_pos a3, if_pos (by omega)]
            · rw [if_neg a3, if_neg (by omega)]
      have htl : -1 ≤ other.accepted[k] := ho.toks k _ htok
      rw [e1, Option.bind_some, htok, Option.bind_some]
      have htake : other.accepted.take (k + 1) = other.accepted.take k ++ [other.accepted[k]] := by rw [List.take_succ_eq_append_getElem hkl]
      by_cases hpos : 0 ≤ other.accepted[k]
      · rw [if_pos hpos]
        obtain ⟨o2, f1, f2, f3, f4, f5, f6, f7⟩ := faAddAccept_spec e2 hpos (show out.nstates < o'.nstates by omega)
        refine ⟨o2, f1, f2, by rw [f3, e3, t2], by rw [f4, e4, t3], by omega, ?_, ?_⟩
        · rw [f6, e6, htake, t5]
          have hlen : (fa.accepted ++ other.accepted.take k).length = out.nstates := by
            rw [t4, List.length_append, List.length_take, h.acc]; omega
          rw [← hlen, List.set_append_right _ _ (Nat.le_refl _)]
          simp [List.append_assoc]
        · intro s c; rw [f7]; exact hcell s c
      · rw [if_neg hpos]
        refine ⟨o', rfl, e2, by rw [e3, t2], by rw [e4, t3], by omega, ?_, hcell⟩
        rw [e6, t5, htake, show other.accepted[k] = -1 by omega, List.append_assoc])
  obtain ⟨t1, t2, t3, t4, t5, t6⟩ := i1
  rw [List.take_of_length_le (by rw [ho.acc])] at t5
  -- the second loop
  let Inv : Nat → Nat → FA → Prop := fun k j out => FATable out ∧ out.nsym = fa.nsym ∧ out.det = fa.det ∧
      out.nstates = fa.nstates + other.nstates ∧ out.accepted = fa.accepted ++ other.accepted ∧
      ∀ s c, out.cell s c = if s < fa.nstates then fa.cell s c else
        if c < other.ncols ∧ (s < fa.nstates + k ∨ (s = fa.nstates + k ∧ c < j)) then (other.cell (s - fa.nstates) c).map (shiftCell fa.nstates) else
        if s < fa.nstates + other.nstates ∧ c < fa.ncols then some (-1) else none
  obtain ⟨o2, l2, i2⟩ := foldlM_range (fun (out : FA) s => (List.range other.ncols).foldlM (fun (out : FA) c =>
      (faStep other s c).bind (fun t =>
        if t < 0 then some out else faAddTransition out (s + fa.nstates) c (t.toNat + fa.nstates))) out)
    (fun k out => Inv k 0 out) other.nstates o1 (by
      refine ⟨t1, t2, t3, t4, t5, ?_⟩
      intro s c
      rw [t6]
      by_cases a1 : s < fa.nstates
      · rw [if_pos a1, if_pos a1]
      · rw [if_neg a1, if_neg a1, if_neg (show ¬ (c < other.ncols ∧ (s < fa.nstates + 0 ∨ (s = fa.nstates + 0 ∧ c < 0))) by omega)]) (by
      intro k hk out hout
      obtain ⟨o3, l3, i3⟩ := foldlM_range (fun (out : FA) c => (faStep other k c).bind (fun t =>
          if t < 0 then some out else faAddTransition out (k + fa.nstates) c (t.toNat + fa.nstates))) (fun j out => Inv k j out) other.ncols out hout (by
        rintro j hj out ⟨u1, u2, u3, u4, u5, u6⟩
        obtain ⟨v, hv⟩ := cell_some ho hk hj
        rw [show faStep other k j = some v from hv, Option.bind_some]
        have hold : out.cell (k + fa.nstates) j = some (-1) := by
          rw [u6, if_neg (by omega), if_neg (by omega), if_pos (by omega)]
        by_cases hneg : v < 0
        · rw [if_pos hneg]
          refine ⟨out, rfl, u1, u2, u3, u4, u5, ?_⟩
          intro s c
          by_cases a1 : s = k + fa.nstates ∧ c = j
          · obtain ⟨rfl, rfl⟩ := a1
            rw [hold, if_neg (by omega), if_pos (by omega), Nat.add_sub_cancel, hv]
            simp [shiftCell, hneg]
          · rw [u6]
            by_cases a2 : s < fa.nstates
            · rw [if_pos a2, if_pos a2]
            · rw [if_neg a2, if_neg a2]
              by_cases a3 : c < other.ncols ∧ (s < fa.nstates + k ∨ (s = fa.nstates + k ∧ c < j))
              · rw [if_pos a3, if_pos (by omega)]
              · rw [if_neg a3, if_neg (show ¬ (c < other.ncols ∧ (s < fa.nstates + k ∨ (s = fa.nstates + k ∧ c < j + 1))) by omega)]
        · rw [if_neg hneg]
          have hb : v < other.nstates := by
            rcases ho.cells k j v hv with e | e <;> omega
          obtain ⟨o', g1, g2, g3, g4, g5, g6, g7⟩ := faAddTransition_spec u1 (show v.toNat + fa.nstates < out.nstates by omega) hold
          refine ⟨o', g1, g2, by rw [g3, u2], by rw [g4, u3], by omega, by rw [g6, u5], ?_⟩
          intro s c
          rw [g7]
          by_cases a1 : s = k + fa.nstates ∧ c = j
          · obtain ⟨rfl, rfl⟩ := a1
            rw [if_pos ⟨rfl, rfl⟩, if_neg (by omega), if_pos (by omega), Nat.add_sub_cancel, hv]
            simp only [Option.map_some, shiftCell, if_neg hneg]
            congr 1; omega
          · rw [if_neg a1, u6]
            by_cases a2 : s < fa.nstates
            · rw [if_pos a2, if_pos a2]
            · rw [if_neg a2, if_neg a2]
              by_cases a3 : c < other.ncols ∧ (s < fa.nstates + k ∨ (s = fa.nstates + k ∧ c < j))
              · rw [if_pos a3, if_pos (by omega)]
              · rw [if_neg a3, if_neg (show ¬ (c < other.ncols ∧ (s < fa.nstates + k ∨ (s = fa.nstates + k ∧ c < j + 1))) by omega)])
      obtain ⟨u1, u2, u3, u4, u5, u6⟩ := i3
      refine ⟨o3, l3, u1, u2, u3, u4, u5, ?_⟩
      intro s c
      rw [u6]
      by_cases a2 : s < fa.nstates
      · rw [if_pos a2, if_pos a2]
      · rw [if_neg a2, if_neg a2]
        by_cases a3 : c < other.ncols ∧ (s < fa.nstates + k ∨ (s = fa.nstates + k ∧ c < other.ncols))
        · rw [if_pos a3, if_pos (by omega)]
        · rw [if_neg a3, if_neg (show ¬ (c < other.ncols ∧ (s < fa.nstates + (k + 1) ∨ (s = fa.nstates + (k + 1) ∧ c < 0))) by omega)])
  obtain ⟨u1, u2, u3, u4, u5, u6⟩ := i2
  refine ⟨o2, ?_, u1, u2, u3, u4, u5, ?_⟩
  · unfold faAppend
    rw [if_neg (by rw [hs]; simp), if_neg hd, l1, Option.bind_some]
    exact l2
  · intro s c
    rw [u6]
    by_cases a2 : s < fa.nstates
    · rw [if_pos a2, if_pos a2]
    · rw [if_neg a2, if_neg a2]
      by_cases a3 : c < other.ncols
      · rw [if_pos a3]
        by_cases a4 : s < fa.nstates + other.nstates
        · rw [if_pos (by omega)]
        · have hno : other.cell (s - fa.nstates) c = none := by
            cases hc : other.cell (s - fa.nstates) c with
            | none => rfl
            | some v => exact absurd (faCell_lt ho hc).1 (by omega)
          rw [hno, Option.map_none]
          rw [if_neg (show ¬ (c < other.ncols ∧ (s < fa.nstates + other.nstates ∨ (s = fa.nstates + other.nstates ∧ c < 0))) by omega),
            if_neg (by omega)]
      · rw [if_neg a3, if_neg (fun h => a3 h.1)]

end OmegaH
