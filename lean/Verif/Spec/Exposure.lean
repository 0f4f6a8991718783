import Mathlib.Data.Rat.Defs
import Mathlib.Algebra.Order.Ring.Unbundled.Rat
import Mathlib.Data.Set.Card

/-!
# Specification: who sees how many impressions

Everything here speaks about raw impression logs (lists of (user, spend) in input order) and
does not mention the model.
-/

namespace Verif.Spec

/-- The log's users are the first components. -/
abbrev RawLog := List (Int × ℚ)

/-- How often user `u` occurs among the entries affordable with spend `s`. -/
def exposuresAtSpend (log : RawLog) (s : ℚ) (u : Int) : Nat :=
  log.countP (fun e => e.1 = u ∧ e.2 ≤ s)

/-- Number of entries affordable with spend `s`. -/
def affordable (log : RawLog) (s : ℚ) : Nat := log.countP (fun e => e.2 ≤ s)

/-- Position `i` is delivered before position `j`: it is cheaper, or equally expensive and
earlier in the log. -/
def before (log : RawLog) (i j : Nat) : Bool :=
  match log[i]?, log[j]? with
  | some a, some b => a.2 < b.2 ∨ (a.2 = b.2 ∧ i < j)
  | _, _ => false

/-- Number of impressions delivered before the one at position `j`. -/
def rank (log : RawLog) (j : Nat) : Nat :=
  (List.range log.length).countP (fun i => before log i j)

/-- How often user `u` is reached when the first `n` impressions are delivered, cheapest
first. -/
def exposuresAtImpressions (log : RawLog) (n : Nat) (u : Int) : Nat :=
  (List.range log.length).countP
    (fun j => rank log j < n ∧ (log[j]?).map (·.1) = some u)

/-- Number of people with at least `k` exposures. -/
noncomputable def kPlusReach (exposures : Int → Nat) (k : Nat) : Nat :=
  Set.ncard {u | k ≤ exposures u}

/-- The distinct users of a log. -/
def users (log : RawLog) : Set Int := {u | ∃ e ∈ log, e.1 = u}

end Verif.Spec

namespace Verif.Spec

/-- Total exposures of user `u` over all publishers when publisher `i` delivers its `v[i]`
cheapest impressions. -/
def totalAtImpressions (logs : List RawLog) (v : List Nat) (u : Int) : Nat :=
  ((logs.zip v).map (fun lv => exposuresAtImpressions lv.1 lv.2 u)).sum

/-- Total exposures of user `u` over all publishers when `s[i]` is spent with publisher `i`. -/
def totalAtSpend (logs : List RawLog) (s : List ℚ) (u : Int) : Nat :=
  ((logs.zip s).map (fun ls => exposuresAtSpend ls.1 ls.2 u)).sum

/-- Users occurring in any of the logs. -/
def allUsers (logs : List RawLog) : Set Int := {u | ∃ log ∈ logs, u ∈ users log}

end Verif.Spec
