/-! # Specification of bisection over ranks

`data` lists for every rank the rows that it holds, `marks` their marks. -/

namespace OmegaH.Spec

/-- The rows with mark `m`, in order. -/
def withMark {α : Type} (m : Int) (marks : List Int) (rows : List α) : List α :=
  ((rows.zip marks).filter (fun x => x.2 == m)).map Prod.fst

/-- The rows with mark `m` of all ranks, in the order of the ranks. -/
def allWithMark {α : Type} (m : Int) (marks : List (List Int)) (data : List (List α)) : List α :=
  ((data.zip marks).map (fun x => withMark m x.2 x.1)).flatten

/-- Every rank has one mark, zero or one, for each of its rows. -/
def MarksFor {α : Type} (data : List (List α)) (marks : List (List Int)) : Prop :=
  marks.length = data.length ∧ ∀ (r : Nat) rows ms, data[r]? = some rows → marks[r]? = some ms →
    ms.length = rows.length ∧ ∀ m ∈ ms, m = 0 ∨ m = 1

/-- No two ranks differ by more than one row. -/
def Even {α : Type} (ranks : List (List α)) : Prop := ∀ a ∈ ranks, ∀ b ∈ ranks, a.length ≤ b.length + 1

/-- Unmarked rows go to the first half of the ranks, marked rows to the second half. In a half, they are dealt in order and evenly. -/
structure Halved {α : Type} (marks : List (List Int)) (data moved : List (List α)) : Prop where
  size : moved.length = data.length
  lower : (moved.take (data.length / 2)).flatten = allWithMark 0 marks data
  upper : (moved.drop (data.length / 2)).flatten = allWithMark 1 marks data
  lowerEven : Even (moved.take (data.length / 2))
  upperEven : Even (moved.drop (data.length / 2))

/-- Repeated halving until every rank is alone. -/
inductive Bisected {α : Type} : List (List α) → List (List α) → Prop
  | alone (rows : List α) : Bisected [rows] [rows]
  | halve {data moved lower upper : List (List α)} (marks : List (List Int)) (hm : MarksFor data marks) (hh : Halved marks data moved)
      (hl : Bisected (moved.take (data.length / 2)) lower) (hu : Bisected (moved.drop (data.length / 2)) upper) :
      Bisected data (lower ++ upper)

end OmegaH.Spec
