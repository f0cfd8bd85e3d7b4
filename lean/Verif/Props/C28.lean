import Verif.Props.C27
import Verif.Spec.Reader

/-! # C28: the reader tokenizes by longest match -/

namespace OmegaH

open Spec

theorem walk_split {E : Nat → Option Nat → Nat → Prop} {s t : Nat} {u v : List Nat} (h : Walk E s (u ++ v) t) :
    ∃ m, Walk E s u m ∧ Walk E m v t := by
  induction u generalizing s with
  | nil => exact ⟨s, Walk.nil s, h⟩
  | cons a u ih =>
    obtain ⟨p, q, h1, h2, h3⟩ := walk_cons h
    obtain ⟨m, m1, m2⟩ := ih h3
    exact ⟨m, walk_append h1 (Walk.sym h2 m1), m2⟩

theorem CanRead.prefix {lexer : FA} {x y : List Nat} (h : CanRead lexer (x ++ y)) : CanRead lexer x := by
  obtain ⟨v, q, h1, h2⟩ := h
  obtain ⟨a, b, rfl, ha, _⟩ := encode_append.1 h1
  obtain ⟨m, m1, _⟩ := walk_split h2
  exact ⟨a, m, ha, m1⟩

theorem TextAccepts.canRead {lexer : FA} {u : List Nat} {t : Int} (h : TextAccepts lexer u t) : CanRead lexer u := by
  obtain ⟨v, h1, q, h2, _⟩ := h
  exact ⟨v, q, h1, h2⟩

theorem TextAccepts.unique {lexer : FA} (hd : lexer.det = true) {u : List Nat} {t t' : Int} (h : TextAccepts lexer u t) (h' : TextAccepts lexer u t') :
    t = t' := by
  obtain ⟨v, h1, q, h2, h3, _⟩ := h
  obtain ⟨v', h1', q', h2', h3', _⟩ := h'
  rw [h1] at h1'
  cases h1'
  rw [walk_det hd h2 h2', h3'] at h3
  exact (Option.some.inj h3).symm

theorem longestMatch_nil {lexer : FA} {toks : List (Int × List Nat)} : LongestMatch lexer [] toks ↔ toks = [] := by
  constructor
  · intro h
    generalize hw : ([] : List Nat) = w at h
    cases h with
    | nil => rfl
    | cons h1 _ _ _ => exact absurd (List.append_eq_nil_iff.1 hw.symm).1 h1
  · rintro rfl; exact LongestMatch.nil

theorem longestMatch_cons {lexer : FA} {w : List Nat} (hw : w ≠ []) {toks : List (Int × List Nat)} (h : LongestMatch lexer w toks) :
    ∃ u r token toks', w = u ++ r ∧ toks = (token, u) :: toks' ∧ u ≠ [] ∧ TextAccepts lexer u token ∧
      (∀ x y t, r = x ++ y → x ≠ [] → ¬ TextAccepts lexer (u ++ x) t) ∧ LongestMatch lexer r toks' := by
  cases h with
  | nil => exact absurd rfl hw
  | cons h1 h2 h3 h4 => exact ⟨_, _, _, _, rfl, rfl, h1, h2, h3, h4⟩

theorem stopsInTime_cons {lexer : FA} {u r : List Nat} {token : Int} {toks : List (Int × List Nat)} :
    StopsInTime lexer (u ++ r) ((token, u) :: toks) ↔ (r ≠ [] → ¬ CanRead lexer (u ++ r)) ∧ StopsInTime lexer r toks := by
  constructor
  · intro h
    generalize hw : u ++ r = w at h
    cases h with
    | cons h1 h2 => 
      have := List.append_cancel_left hw
      subst this
      exact ⟨h1, h2⟩
  · rintro ⟨h1, h2⟩; exact StopsInTime.cons h1 h2

/-- The first token is the longest one. -/
theorem longestMatch_first {lexer : FA} (hd : lexer.det = true) {u r : List Nat} {token : Int} (hu : u ≠ []) (ha : TextAccepts lexer u token)
    (hmax : ∀ x y t, u ++ r = x ++ y → u.length < x.length → ¬ TextAccepts lexer x t) {toks : List (Int × List Nat)} :
    LongestMatch lexer (u ++ r) toks ↔ ∃ toks', toks = (token, u) :: toks' ∧ LongestMatch lexer r toks' := by
  constructor
  · intro h
    obtain ⟨u', r', token', toks', e1, e2, e3, e4, e5, e6⟩ := longestMatch_cons (by simp [hu]) h
    have hlen : ¬ u.length < u'.length := fun hl => hmax u' r' token' e1 hl e4
    have hpre : ∃ z, u = u' ++ z ∧ r' = z ++ r := by
      rcases List.append_eq_append_iff.1 e1 with ⟨z, z1, z2⟩ | ⟨z, z1, z2⟩
      · have : z = [] := by
          rw [z1, List.length_append] at hlen
          exact List.length_eq_zero_iff.1 (by omega)
        subst this
        rw [List.append_nil] at z1
        exact ⟨[], by rw [z1, List.append_nil], by rw [z2]; rfl⟩
      · exact ⟨z, z1, z2⟩
    obtain ⟨z, rfl, rfl⟩ := hpre
    by_cases hz : z = []
    · subst hz
      rw [List.append_nil] at ha ⊢
      obtain rfl := TextAccepts.unique hd ha e4
      exact ⟨toks', e2, e6⟩
    · exact absurd ha (e5 z r token rfl hz)
  · rintro ⟨toks', rfl, h⟩
    refine LongestMatch.cons hu ha ?_ h
    intro x y t e hx
    refine hmax (u ++ x) y t (by rw [e, List.append_assoc]) ?_
    have := List.length_pos_iff_ne_nil.2 hx
    rw [List.length_append]; omega

/-- What the reader knows in the middle of a token. -/
structure ScanInv (lexer : FA) (s : LexState) : Prop where
  run : ∃ v, s.text.mapM getSymbol = some v ∧ Walk (Edge lexer) 0 v s.state
  none : s.token = -1 → ∀ x y t, s.text = x ++ y → x ≠ [] → ¬ TextAccepts lexer x t
  some : s.token ≠ -1 → ∃ n, s.last = some n ∧ 0 < n ∧ n ≤ s.text.length ∧ TextAccepts lexer (s.text.take n) s.token ∧
    ∀ x y t, s.text = x ++ y → n < x.length → ¬ TextAccepts lexer x t

theorem scanInv_start (lexer : FA) (w : List Nat) (last : Option Nat) : ScanInv lexer ⟨w, [], 0, -1, last⟩ := by
  refine ⟨⟨[], rfl, Walk.nil 0⟩, ?_, fun h => absurd rfl h⟩
  intro _ x y t e hx
  exact absurd (List.append_eq_nil_iff.1 (show [] = x ++ y from e).symm).1 hx

theorem prefix_cases {α : Type} {u r x y : List α} (e : u ++ r = x ++ y) : (∃ z, u = x ++ z) ∨ (∃ z, z ≠ [] ∧ x = u ++ z ∧ r = z ++ y) := by
  rcases List.append_eq_append_iff.1 e with ⟨z, z1, z2⟩ | ⟨z, z1, z2⟩
  · by_cases hz : z = []
    · subst hz; exact Or.inl ⟨[], by rw [z1]; simp⟩
    · exact Or.inr ⟨z, hz, z1, z2⟩
  · exact Or.inl ⟨z, z1⟩

theorem lexLoop_spec {lexer : FA} (hl : FAOk lexer) (hd : lexer.det = true) (hs : lexer.nsym = nchars) (m : Nat) :
    ∀ s : LexState, (s.text ++ s.rest).length ≤ m → ScanInv lexer s → ∀ fuel, s.rest.length + m * m ≤ fuel → ∀ acc,
      lexLoop lexer fuel s acc ≠ .running ∧
      ∀ out, lexLoop lexer fuel s acc = .done out ↔ ∃ toks, out = acc ++ toks ∧ s.text ++ s.rest ≠ [] ∧
        LongestMatch lexer (s.text ++ s.rest) toks ∧ StopsInTime lexer (s.text ++ s.rest) toks := by
  induction m with
  | zero =>
    rintro ⟨rest, text, state, token, last⟩ hm hi fuel hf acc
    dsimp only at hm hi hf ⊢
    have hnil : text ++ rest = [] := List.length_eq_zero_iff.1 (by omega)
    obtain ⟨rfl, rfl⟩ := List.append_eq_nil_iff.1 hnil
    have htok : token = -1 := by
      by_contra h
      obtain ⟨n, _, h1, h2, _⟩ := hi.some h
      simp at h2; omega
    subst htok
    unfold lexLoop lexerEnd
    dsimp only
    cases last with
    | none => exact ⟨by simp, fun out => ⟨fun h => (nomatch h), fun ⟨_, _, h, _⟩ => absurd rfl h⟩⟩
    | some n =>
      dsimp only
      rw [if_neg (by simp), if_pos rfl]
      exact ⟨by simp, fun out => ⟨fun h => (nomatch h), fun ⟨_, _, h, _⟩ => absurd rfl h⟩⟩
  | succ m ih =>
    suffices key : ∀ (rest text : List Nat) (state : Nat) (token : Int) (last : Option Nat), (text ++ rest).length ≤ m + 1 →
        ScanInv lexer ⟨rest, text, state, token, last⟩ → ∀ fuel, rest.length + (m + 1) * (m + 1) ≤ fuel → ∀ acc,
        lexLoop lexer fuel ⟨rest, text, state, token, last⟩ acc ≠ .running ∧
        ∀ out, lexLoop lexer fuel ⟨rest, text, state, token, last⟩ acc = .done out ↔ ∃ toks, out = acc ++ toks ∧ text ++ rest ≠ [] ∧
          LongestMatch lexer (text ++ rest) toks ∧ StopsInTime lexer (text ++ rest) toks by
      rintro ⟨rest, text, state, token, last⟩
      exact key rest text state token last
    intro rest
    induction rest with
    | nil =>
      intro text state token last hm hi fuel hf acc
      rw [List.append_nil] at hm ⊢
      unfold lexLoop lexerEnd
      dsimp only
      have hcan : CanRead lexer text := by
        obtain ⟨v, h1, h2⟩ := hi.run
        exact ⟨v, state, h1, h2⟩
      by_cases htok : token = -1
      · have hno : ∀ toks, text ≠ [] → ¬ LongestMatch lexer text toks := by
          intro toks hne h
          obtain ⟨u, r, t, _, e1, _, e3, e4, _⟩ := longestMatch_cons hne h
          exact hi.none htok u r t e1 e3 e4
        cases last with
        | none => exact ⟨by simp, fun out => ⟨fun h => (nomatch h), fun ⟨_, _, h1, h2, _⟩ => absurd h2 (hno _ h1)⟩⟩
        | some n =>
          dsimp only
          by_cases hn : n < text.length
          · rw [if_pos hn]
            exact ⟨by simp, fun out => ⟨fun h => (nomatch h), fun ⟨_, _, h1, h2, _⟩ => absurd h2 (hno _ h1)⟩⟩
          · rw [if_neg hn, if_pos htok]
            exact ⟨by simp, fun out => ⟨fun h => (nomatch h), fun ⟨_, _, h1, h2, _⟩ => absurd h2 (hno _ h1)⟩⟩
      · obtain ⟨n, n1, n2, n3, n4, n5⟩ := hi.some htok
        dsimp only at n1 n3 n4 n5
        subst n1
        dsimp only
        have hu : text.take n ≠ [] := by
          rw [← List.length_pos_iff_ne_nil, List.length_take]; omega
        have hsplit : text = text.take n ++ text.drop n := (List.take_append_drop n text).symm
        have hfirst : ∀ toks, LongestMatch lexer text toks ↔ ∃ toks', toks = (token, text.take n) :: toks' ∧ LongestMatch lexer (text.drop n) toks' := by
          intro toks
          have := longestMatch_first hd (u := text.take n) (r := text.drop n) hu n4 (by
            intro x y t e hx
            rw [List.take_append_drop] at e
            refine n5 x y t e ?_
            rw [List.length_take] at hx; omega) (toks := toks)
          rwa [List.take_append_drop] at this
        by_cases hn : n < text.length
        · rw [if_pos hn]
          refine ⟨by simp, fun out => ⟨fun h => (nomatch h), ?_⟩⟩
          rintro ⟨toks, _, _, h2, h3⟩
          obtain ⟨toks', rfl, _⟩ := (hfirst toks).1 h2
          have h3' : StopsInTime lexer (text.take n ++ text.drop n) ((token, text.take n) :: toks') := by rw [← hsplit]; exact h3
          have := (stopsInTime_cons.1 h3').1 (by rw [← List.length_pos_iff_ne_nil, List.length_drop]; omega)
          rw [← hsplit] at this
          exact absurd hcan this
        · obtain rfl : n = text.length := by omega
          rw [if_neg hn, if_neg htok]
          dsimp only
          rw [List.take_length] at *
          rw [List.drop_length] at hfirst
          refine ⟨by simp, fun out => ⟨?_, ?_⟩⟩
          · intro h
            have h := Outcome.done.inj h
            refine ⟨[(token, text)], h.symm, hu, (hfirst _).2 ⟨[], rfl, LongestMatch.nil⟩, ?_⟩
            have := StopsInTime.cons (lexer := lexer) (u := text) (r := []) (token := token) (toks := []) (fun h => absurd rfl h) StopsInTime.nil
            rwa [List.append_nil] at this
          · rintro ⟨toks, rfl, _, h2, _⟩
            obtain ⟨toks', rfl, h4⟩ := (hfirst toks).1 h2
            rw [longestMatch_nil.1 h4]
    | cons c rest ihr =>
      intro text state token last hm hi fuel hf acc
      have hne : text ++ c :: rest ≠ [] := by simp
      have hassoc : text ++ c :: rest = (text ++ [c]) ++ rest := by simp
      have hmm : m * m ≤ (m + 1) * (m + 1) := Nat.mul_le_mul (by omega) (by omega)
      obtain ⟨fuel, rfl⟩ : ∃ f, fuel = f + 1 := ⟨fuel - 1, by simp only [List.length_cons] at hf; omega⟩
      simp only [List.length_cons] at hf
      obtain ⟨v, hv1, hv2⟩ := hi.run
      dsimp only at hv1 hv2
      -- a text that is not read beyond `text` decides the first token
      have hstop : ¬ CanRead lexer (text ++ [c]) → ∀ x y, text ++ c :: rest = x ++ y → text.length < x.length → ¬ CanRead lexer x := by
        intro h x y e hx hc
        rw [hassoc] at e
        rcases prefix_cases e with ⟨z, z1⟩ | ⟨z, _, z1, _⟩
        · have : z = [] := by
            have := congrArg List.length z1
            simp only [List.length_append, List.length_cons, List.length_nil] at this
            exact List.length_eq_zero_iff.1 (by omega)
          subst this
          rw [List.append_nil] at z1
          exact h (z1 ▸ hc)
        · rw [z1] at hc
          exact h (CanRead.prefix hc)
      have hdeadnone : ¬ CanRead lexer (text ++ [c]) → token = -1 → ∀ toks, ¬ LongestMatch lexer (text ++ c :: rest) toks := by
        intro h htok toks hlm
        obtain ⟨u, r, t, _, e1, _, e3, e4, _⟩ := longestMatch_cons hne hlm
        have hlen : u.length ≤ text.length := by
          by_contra hc
          exact hstop h u r e1 (by omega) (TextAccepts.canRead e4)
        rcases prefix_cases e1 with ⟨z, z1⟩ | ⟨z, z0, z1, _⟩
        · exact hi.none htok u z t z1 e3 e4
        · rw [z1, List.length_append] at hlen
          exact z0 (List.length_eq_zero_iff.1 (by omega))
      unfold lexLoop lexChar
      dsimp only
      cases hc : getSymbol c with
      | none =>
        dsimp only
        have hdead : ¬ CanRead lexer (text ++ [c]) := by
          rintro ⟨v', q, e, _⟩
          obtain ⟨a, b, _, _, hb⟩ := encode_append.1 e
          obtain ⟨s, h1, _⟩ := encode_single.1 hb
          rw [hc] at h1; cases h1
        refine ⟨by simp, fun out => ⟨fun h => (nomatch h), ?_⟩⟩
        rintro ⟨toks, _, _, h2, h3⟩
        by_cases htok : token = -1
        · exact absurd h2 (hdeadnone hdead htok toks)
        · exfalso
          -- no cut of a text with an unreadable character exists
          have hno : ∀ w toks, LongestMatch lexer w toks → ∃ v, w.mapM getSymbol = some v := by
            intro w toks h
            induction h with
            | nil => exact ⟨[], rfl⟩
            | cons _ h2 _ _ ih =>
              obtain ⟨v, hv, _⟩ := h2
              obtain ⟨v', hv'⟩ := ih
              exact ⟨v ++ v', encode_append.2 ⟨v, v', rfl, hv, hv'⟩⟩
          obtain ⟨v', hv'⟩ := hno _ _ h2
          rw [hassoc] at hv'
          obtain ⟨a, b, _, ha, _⟩ := encode_append.1 hv'
          obtain ⟨a', b', _, _, hb⟩ := encode_append.1 ha
          obtain ⟨s, h1, _⟩ := encode_single.1 hb
          rw [hc] at h1; cases h1
      | some sym =>
        dsimp only
        have hsym : sym < lexer.nsym := by rw [hs]; exact (getSymbol_some hc).1
        have hstate : state < lexer.nstates := walk_lt hl.1 hv2 hl.2
        obtain ⟨nx, hnx⟩ := cell_some hl.1 (s := state) (c := sym) hstate (by unfold FA.ncols; omega)
        have henc : (text ++ [c]).mapM getSymbol = some (v ++ [sym]) := encode_append.2 ⟨v, [sym], rfl, hv1, encode_single.2 ⟨sym, hc, rfl⟩⟩
        unfold faStep
        rw [hnx]
        dsimp only
        by_cases hdie : nx = -1
        · rw [if_pos hdie]
          have hdead : ¬ CanRead lexer (text ++ [c]) := by
            rintro ⟨v', q, e1, e2⟩
            rw [henc] at e1; cases e1
            obtain ⟨p, p1, p2⟩ := walk_split e2
            rw [walk_det hd p1 hv2] at p2
            obtain ⟨p', q', k1, k2, _⟩ := walk_cons p2
            rw [walk_det_nil hd k1] at k2
            have := k2.2
            rw [hnx, hdie] at this
            have := Option.some.inj this
            omega
          unfold lexerEnd
          dsimp only
          by_cases htok : token = -1
          · rw [if_pos htok]
            dsimp only
            exact ⟨by simp, fun out => ⟨fun h => (nomatch h), fun ⟨_, _, _, h2, _⟩ => absurd h2 (hdeadnone hdead htok _)⟩⟩
          · rw [if_neg htok]
            obtain ⟨n, n1, n2, n3, n4, n5⟩ := hi.some htok
            dsimp only at n1 n3 n4 n5
            subst n1
            dsimp only
            have htake : (text ++ [c]).take n = text.take n := by rw [List.take_append_of_le_length n3]
            have hdrop : (text ++ [c]).drop n ++ rest = text.drop n ++ c :: rest := by
              rw [List.drop_append_of_le_length n3]; simp
            rw [htake, hdrop]
            have hsplit : text ++ c :: rest = text.take n ++ (text.drop n ++ c :: rest) := by
              rw [← List.append_assoc, List.take_append_drop]
            have hu : text.take n ≠ [] := by
              rw [← List.length_pos_iff_ne_nil, List.length_take]; omega
            have hfirst : ∀ toks, LongestMatch lexer (text ++ c :: rest) toks ↔
                ∃ toks', toks = (token, text.take n) :: toks' ∧ LongestMatch lexer (text.drop n ++ c :: rest) toks' := by
              intro toks
              rw [hsplit]
              refine longestMatch_first hd hu n4 ?_
              intro x y t e hx ht
              rw [← hsplit] at e
              rw [List.length_take] at hx
              by_cases hx' : text.length < x.length
              · exact hstop hdead x y e hx' (TextAccepts.canRead ht)
              · rcases prefix_cases e with ⟨z, z1⟩ | ⟨z, z0, z1, _⟩
                · exact n5 x z t z1 (by omega) ht
                · rw [z1, List.length_append] at hx'
                  exact z0 (List.length_eq_zero_iff.1 (by omega))
            have hlen : (text.drop n ++ c :: rest).length ≤ m := by
              have := hm
              rw [hsplit, List.length_append, List.length_take] at this
              omega
            have hrest : (text.drop n ++ c :: rest) ≠ [] := by simp
            obtain ⟨r1, r2⟩ := ih ⟨text.drop n ++ c :: rest, [], 0, -1, some n⟩ hlen (scanInv_start _ _ _) fuel (by
              dsimp only
              have : (m + 1) * (m + 1) = m * m + m + m + 1 := by rw [Nat.succ_mul, Nat.mul_succ]; omega
              omega) (acc ++ [(token, text.take n)])
            refine ⟨r1, ?_⟩
            intro out
            rw [r2]
            dsimp only
            rw [List.nil_append]
            constructor
            · rintro ⟨toks, rfl, h1, h2, h3⟩
              refine ⟨(token, text.take n) :: toks, by simp, hne, (hfirst _).2 ⟨toks, rfl, h2⟩, ?_⟩
              rw [hsplit]
              refine StopsInTime.cons (fun _ hc => ?_) h3
              rw [← hsplit, hassoc] at hc
              exact hdead (CanRead.prefix hc)
            · rintro ⟨toks, rfl, _, h2, h3⟩
              obtain ⟨toks', rfl, h4⟩ := (hfirst _).1 h2
              rw [hsplit] at h3
              exact ⟨toks', by simp, hrest, h4, (stopsInTime_cons.1 h3).2⟩
        · rw [if_neg hdie]
          obtain ⟨q, rfl⟩ : ∃ q : Nat, nx = (q : Int) := by
            rcases hl.1.cells _ _ _ hnx with e | e
            · exact absurd e hdie
            · exact ⟨nx.toNat, by omega⟩
          have hq : q < lexer.nstates := by rcases hl.1.cells _ _ _ hnx with e | e <;> omega
          have hwalk : Walk (Edge lexer) 0 (v ++ [sym]) q := walk_append hv2 (Walk.sym ⟨hsym, hnx⟩ (Walk.nil q))
          rw [Int.toNat_natCast]
          obtain ⟨tk, htk⟩ : ∃ tk, lexer.accepted[q]? = some tk := ⟨_, List.getElem?_eq_getElem (by rw [hl.1.acc]; exact hq)⟩
          unfold faAccepts
          rw [htk]
          dsimp only
          have hacc : ∀ t, TextAccepts lexer (text ++ [c]) t → t = tk ∧ tk ≠ -1 := by
            rintro t ⟨v', e1, u, e2, e3, e4⟩
            rw [henc] at e1; cases e1
            rw [walk_det hd e2 hwalk, htk] at e3
            have := Option.some.inj e3
            exact ⟨this.symm, by rw [this]; exact e4⟩
          rw [hassoc] at hm ⊢
          by_cases htkn : tk = -1
          · rw [if_neg (by rw [htkn]; simp)]
            refine ihr (text ++ [c]) q token last hm ⟨⟨v ++ [sym], henc, hwalk⟩, ?_, ?_⟩ fuel (by omega) acc
            · intro htok x y t e hx ht
              dsimp only at htok e
              rcases List.append_eq_append_iff.1 e with ⟨z, z1, z2⟩ | ⟨z, z1, z2⟩
              · cases z with
                | nil => exact hi.none htok x [] t (by rw [z1]; simp) hx ht
                | cons z0 z' =>
                  have hl' := congrArg List.length z2
                  simp only [List.length_cons, List.length_append, List.length_nil] at hl'
                  have hy : y = [] := List.length_eq_zero_iff.1 (by omega)
                  subst hy
                  rw [List.append_nil] at e
                  rw [← e] at ht
                  exact (hacc t ht).2 htkn
              · exact hi.none htok x z t z1 hx ht
            · intro htok
              obtain ⟨n, n1, n2, n3, n4, n5⟩ := hi.some htok
              dsimp only at n1 n3 n4 n5
              refine ⟨n, n1, n2, by simp; omega, ?_, ?_⟩
              · dsimp only
                rw [List.take_append_of_le_length n3]; exact n4
              · intro x y t e hx ht
                dsimp only at e
                rcases List.append_eq_append_iff.1 e with ⟨z, z1, z2⟩ | ⟨z, z1, z2⟩
                · cases z with
                  | nil => exact n5 x [] t (by rw [z1]; simp) hx ht
                  | cons z0 z' =>
                    have hl' := congrArg List.length z2
                    simp only [List.length_cons, List.length_append, List.length_nil] at hl'
                    have hy : y = [] := List.length_eq_zero_iff.1 (by omega)
                    subst hy
                    rw [List.append_nil] at e
                    rw [← e] at ht
                    exact (hacc t ht).2 htkn
                · exact n5 x z t z1 hx ht
          · rw [if_pos htkn]
            refine ihr (text ++ [c]) q tk (some (text.length + 1)) hm ⟨⟨v ++ [sym], henc, hwalk⟩, fun h => absurd h htkn, ?_⟩ fuel (by omega) acc
            intro _
            refine ⟨text.length + 1, rfl, by omega, by simp, ?_, ?_⟩
            · dsimp only
              rw [List.take_of_length_le (by simp)]
              exact ⟨v ++ [sym], henc, q, hwalk, htk, htkn⟩
            · intro x y t e hx
              dsimp only at e
              have := congrArg List.length e
              simp only [List.length_append, List.length_cons, List.length_nil] at this
              omega

/-- A reader of a nonempty text comes to an end. It passes on the tokens of the cut by longest match, if the automaton stops before the end of the text
at every token but the last; else it fails. -/
theorem C28_tokens {lexer : FA} (hl : FAOk lexer) (hd : lexer.det = true) (hs : lexer.nsym = nchars) (last : Option Nat) (w : List Nat) (fuel : Nat)
    (hf : w.length + w.length * w.length ≤ fuel) :
    readTokens lexer fuel last w ≠ .running ∧ ∀ toks, readTokens lexer fuel last w = .done toks ↔
      w ≠ [] ∧ LongestMatch lexer w toks ∧ StopsInTime lexer w toks := by
  obtain ⟨h1, h2⟩ := lexLoop_spec hl hd hs w.length ⟨w, [], 0, -1, last⟩ (by simp) (scanInv_start _ _ _) fuel hf []
  refine ⟨h1, ?_⟩
  intro toks
  unfold readTokens
  rw [h2]
  dsimp only
  rw [List.nil_append]
  constructor
  · rintro ⟨t, rfl, h⟩; exact h
  · intro h; exact ⟨toks, rfl, h⟩

/-- The tokens of a reader are always those of the cut by longest match. -/
theorem C28_sound {lexer : FA} (hl : FAOk lexer) (hd : lexer.det = true) (hs : lexer.nsym = nchars) (last : Option Nat) (w : List Nat) (fuel : Nat)
    (hf : w.length + w.length * w.length ≤ fuel) (toks : List (Int × List Nat)) (h : readTokens lexer fuel last w = .done toks) :
    LongestMatch lexer w toks := (((C28_tokens hl hd hs last w fuel hf).2 toks).1 h).2.1

/-- There is at most one cut by longest match. -/
theorem C28_unique {lexer : FA} (hd : lexer.det = true) {w : List Nat} {toks toks' : List (Int × List Nat)} (h : LongestMatch lexer w toks)
    (h' : LongestMatch lexer w toks') : toks = toks' := by
  induction h generalizing toks' with
  | nil => exact (longestMatch_nil.1 h').symm
  | @cons u r token toks h1 h2 h3 h4 ih =>
    obtain ⟨toks'', rfl, h5⟩ := (longestMatch_first hd h1 h2 (by
      intro x y t e hx ht
      rcases prefix_cases e with ⟨z, z1⟩ | ⟨z, z0, z1, z2⟩
      · rw [z1, List.length_append] at hx; omega
      · exact h3 z y t z2 z0 (z1 ▸ ht))).1 h'
    rw [ih h5]

/-- If every nonempty text that the automaton can read has a token, a nonempty text is cut whenever it can be. What is missing is the
other automata: see `C28_split_refuted`; and the empty text: see `C28_empty_refuted`. -/
theorem C28_split_partial {lexer : FA} (hl : FAOk lexer) (hd : lexer.det = true) (hs : lexer.nsym = nchars)
    (hp : ∀ u, u ≠ [] → CanRead lexer u → ∃ t, TextAccepts lexer u t) (last : Option Nat) (w : List Nat) (hw : w ≠ []) (fuel : Nat)
    (hf : w.length + w.length * w.length ≤ fuel) (toks : List (Int × List Nat)) :
    readTokens lexer fuel last w = .done toks ↔ LongestMatch lexer w toks := by
  rw [(C28_tokens hl hd hs last w fuel hf).2 toks]
  refine ⟨fun h => h.2.1, fun h => ⟨hw, h, ?_⟩⟩
  clear hw hf
  induction h with
  | nil => exact StopsInTime.nil
  | @cons u r token toks h1 _ h3 _ ih =>
    refine StopsInTime.cons ?_ ih
    intro hr hc
    obtain ⟨t, ht⟩ := hp (u ++ r) (by simp [h1]) hc
    exact h3 r [] t (by simp) hr ht

/-- The tokens `a`, `b` and `abc`. -/
def trapTokens : List Regex := [.char 97, .char 98, .concat (.char 97) (.concat (.char 98) (.char 99))]

theorem trapTokens_ok : trapTokens ≠ [] ∧ ∀ r ∈ trapTokens, RegexOk r := by
  refine ⟨by decide, ?_⟩
  intro r hr
  have h : ∀ c, 97 ≤ c → c ≤ 99 → ReadableChar c := fun c h1 h2 => Or.inr (Or.inr (Or.inr (by omega)))
  rcases List.mem_cons.1 hr with rfl | hr
  · exact h 97 (by omega) (by omega)
  · rcases List.mem_cons.1 hr with rfl | hr
    · exact h 98 (by omega) (by omega)
    · rw [List.mem_singleton.1 hr]
      exact ⟨h 97 (by omega) (by omega), h 98 (by omega) (by omega), h 99 (by omega) (by omega)⟩

/-- With the tokens `a`, `b`, `abc`, the text `ab` is cut by longest match into `a` and `b`, but the reader does not read it: the automaton is in the
middle of `abc` at the end, and there is no way back from there. -/
theorem C28_split_refuted : ∃ fuel0, ∀ fuel, fuel0 ≤ fuel → ∃ lexer, buildLexer fuel trapTokens = some lexer ∧ FAOk lexer ∧ lexer.det = true ∧
    lexer.nsym = nchars ∧ LongestMatch lexer [97, 98] [(0, [97]), (1, [98])] ∧
    ∀ last fuel', 6 ≤ fuel' → readTokens lexer fuel' last [97, 98] ≠ .running ∧ ∀ toks, readTokens lexer fuel' last [97, 98] ≠ .done toks := by
  obtain ⟨fuel0, h⟩ := C27_lexer trapTokens trapTokens_ok.1 trapTokens_ok.2
  refine ⟨fuel0, fun fuel hf => ?_⟩
  obtain ⟨lexer, b1, b2, b3, b4, _, b6⟩ := h fuel hf
  have hmem : ∀ (i : Nat) r w, trapTokens[i]? = some r → Lang r w → (i = 0 ∧ w = [97]) ∨ (i = 1 ∧ w = [98]) ∨ (i = 2 ∧ w = [97, 98, 99]) := by
    intro i r w hi hl
    match i, hi with
    | 0, hi => cases hi; exact Or.inl ⟨rfl, hl⟩
    | 1, hi => cases hi; exact Or.inr (Or.inl ⟨rfl, hl⟩)
    | 2, hi =>
      cases hi
      obtain ⟨u, v, rfl, hu, u', v', rfl, hu', hv'⟩ := hl
      refine Or.inr (Or.inr ⟨rfl, ?_⟩)
      rw [show u = [97] from hu, show u' = [98] from hu', show v' = [99] from hv']
      rfl
    | i + 3, hi => cases hi
  have hacc : ∀ (i : Nat) r w v, w.mapM getSymbol = some v → trapTokens[i]? = some r → Lang r w → TextAccepts lexer w (i : Int) := by
    intro i r w v hv hi hl
    refine ⟨v, hv, (b6 w v hv _).2 ⟨i, r, rfl, hi, hl, ?_⟩⟩
    intro j r' hj hr' hl'
    rcases hmem i r w hi hl with ⟨_, e⟩ | ⟨_, e⟩ | ⟨_, e⟩ <;> rcases hmem j r' w hr' hl' with ⟨_, e'⟩ | ⟨_, e'⟩ | ⟨_, e'⟩ <;>
      first | omega | (rw [e] at e'; revert e'; decide)
  have hab : ∀ t, ¬ TextAccepts lexer [97, 98] t := by
    rintro t ⟨v, hv, ha⟩
    obtain ⟨i, r, _, hi, hl, _⟩ := (b6 _ v hv t).1 ha
    rcases hmem i r _ hi hl with ⟨_, e⟩ | ⟨_, e⟩ | ⟨_, e⟩ <;> revert e <;> decide
  have ha : TextAccepts lexer [97] 0 := hacc 0 (.char 97) [97] [4] (by decide) rfl rfl
  have hb : TextAccepts lexer [98] 1 := hacc 1 (.char 98) [98] [5] (by decide) rfl rfl
  have habc : TextAccepts lexer [97, 98, 99] 2 := hacc 2 _ [97, 98, 99] [4, 5, 6] (by decide) rfl
    ⟨[97], [98, 99], rfl, rfl, [98], [99], rfl, rfl, rfl⟩
  have hlm : LongestMatch lexer [97, 98] [(0, [97]), (1, [98])] := by
    refine LongestMatch.cons (u := [97]) (r := [98]) (by simp) ha ?_ ?_
    · intro x y t e hx
      match x, e with
      | [], _ => exact absurd rfl hx
      | [c], e => cases e; exact hab t
      | c :: d :: x, e => cases e
    · refine LongestMatch.cons (u := [98]) (r := []) (by simp) hb ?_ LongestMatch.nil
      intro x y t e hx
      exact absurd (List.append_eq_nil_iff.1 e.symm).1 hx
  refine ⟨lexer, b1, b2, b3, b4, hlm, ?_⟩
  intro last fuel' hf'
  obtain ⟨t1, t2⟩ := C28_tokens b2 b3 b4 last [97, 98] fuel' hf'
  refine ⟨t1, fun toks hd => ?_⟩
  obtain ⟨_, h2, h3⟩ := (t2 toks).1 hd
  rw [← C28_unique b3 hlm h2] at h3
  exact (stopsInTime_cons (u := [97]) (r := [98]).1 h3).1 (by simp) (CanRead.prefix (x := [97, 98]) (y := [99]) (TextAccepts.canRead habc))

/-- The empty text is cut into no tokens, but the reader fails on it; the first time a reader is used, after a read of an uninitialised member. -/
theorem C28_empty_refuted (lexer : FA) (fuel : Nat) : LongestMatch lexer [] [] ∧ readTokens lexer fuel none [] = .ub ∧
    ∀ n, readTokens lexer fuel (some n) [] = .fail := by
  refine ⟨LongestMatch.nil, ?_, ?_⟩
  · unfold readTokens lexLoop; rfl
  · intro n
    unfold readTokens lexLoop lexerEnd
    simp

/-- The tokens `a+` and `b`. -/
def twoTokenLexer : FA :=
  ⟨98, true, [((List.replicate 98 (-1)).set 4 1).set 5 2, (List.replicate 98 (-1)).set 4 1, List.replicate 98 (-1)], [-1, 0, 1]⟩

theorem twoTokenLexer_ok : FAOk twoTokenLexer := by
  have h1 : ∀ row ∈ twoTokenLexer.table, row.length = twoTokenLexer.ncols := by decide +kernel
  have h2 : ∀ row ∈ twoTokenLexer.table, ∀ x ∈ row, x = -1 ∨ (0 ≤ x ∧ x < twoTokenLexer.nstates) := by decide +kernel
  have h3 : ∀ x ∈ twoTokenLexer.accepted, -1 ≤ x := by decide
  refine ⟨⟨by decide, fun s row h => h1 row (List.mem_of_getElem? h), by decide, ?_, fun s x h => h3 x (List.mem_of_getElem? h)⟩, by decide⟩
  intro s c x h
  unfold FA.cell at h
  obtain ⟨row, hr, hx⟩ := Option.bind_eq_some_iff.1 h
  exact h2 row (List.mem_of_getElem? hr) x (List.mem_of_getElem? hx)

example : ∀ u, u ≠ [] → CanRead twoTokenLexer u → ∃ t, TextAccepts twoTokenLexer u t := by
  rintro u hu ⟨v, q, hv, hw⟩
  have key : ∀ s v q, Walk (Edge twoTokenLexer) s v q → v ≠ [] → q = 1 ∨ q = 2 := by
    intro s v q h
    induction h with
    | nil s => intro h; exact absurd rfl h
    | eps h _ _ => exact absurd h.1 (by decide)
    | @sym s t u a v h hw ih =>
      intro _
      by_cases hv : v = []
      · subst hv
        rw [walk_det_nil rfl hw]
        have h2 : ∀ row ∈ twoTokenLexer.table, ∀ x ∈ row, x = -1 ∨ x = 1 ∨ x = 2 := by decide +kernel
        obtain ⟨row, hr, hx⟩ := Option.bind_eq_some_iff.1 h.2
        rcases h2 row (List.mem_of_getElem? hr) _ (List.mem_of_getElem? hx) with e | e | e <;> omega
      · exact ih hv
  have hvne : v ≠ [] := by
    rintro rfl
    exact hu (encode_inj hv (rfl : ([] : List Nat).mapM getSymbol = some []))
  rcases key 0 v q hw hvne with rfl | rfl
  · exact ⟨0, v, hv, 1, hw, rfl, by decide⟩
  · exact ⟨1, v, hv, 2, hw, rfl, by decide⟩

example : readTokens twoTokenLexer 20 none [97, 97, 98, 97] = .done [(0, [97, 97]), (1, [98]), (0, [97])] := by decide +kernel

end OmegaH
