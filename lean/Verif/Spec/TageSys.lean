import Verif.Model.TageSys
import Verif.Spec.Tage
import Verif.Spec.BpuSys
/-
Vocabulary for the predictor as a whole: predictions are made long before the branch retires and trains the tables.
-/
namespace Verif.Spec.TageSys
open Verif.Bpu (W32)
open Verif.Tage Verif.Spec.Tage

/-- Two questions that read the same rows of the tagged tables: same address, same folded histories. -/
def SameRows (k k' : Key) : Prop := k'.pc = k.pc ∧ ∀ j, j < 3 → ∀ i, i < 4 → k'.fh j i = k.fh j i

/-- What comes back of the record `m`: at least the direction, the providing table, rows and tags (the rest is lost on the way,
C112). -/
structure Agrees (m r : Meta) : Prop where
  pred : r.pred = m.pred
  pcpn : r.pcpn = m.pcpn
  idx : ∀ i, i < 4 → r.idx i = m.idx i
  tag : ∀ i, i < 4 → r.tag i = m.tag i

/-- One branch watched in a direction predictor, with predictions that are trained late.  The state; the predictions of the branch
that have been made and not yet trained, oldest first, never more than `W`; the outcomes trained so far, newest first.
* the branch is predicted, perhaps with another long history;
* the youngest predictions are squashed;
* the oldest prediction's branch retires and trains with its outcome;
* another branch that uses none of its rows trains. -/
inductive Watch (c : Cfg) (k : Key) (W : Nat) : St → List Meta → List Bool → Prop
  | start (before : List Upd) : Watch c k W (train c (init c) before) [] []
  | ask {s fl os k'} : Watch c k W s fl os → SameRows k k' → fl.length < W → Watch c k W s (fl ++ [predict c s k']) os
  | squash {s fl os} (n : Nat) : Watch c k W s fl os → Watch c k W s (fl.take n) os
  | own {s m fl os r} (d : Bool) : Watch c k W s (m :: fl) os → Agrees m r → Watch c k W (update c s ⟨k.pc, d, r⟩) fl (d :: os)
  | other {s fl os u} : Watch c k W s fl os → Apart c k u → Watch c k W (update c s u) fl os

/-- How many trainings suffice. -/
def enough (W : Nat) : Nat := 5 * (2 * W + 5)

open Verif.Bpu (Out) in
open Verif.BpuTab in
open Verif.TageSys in
/-- The same inside the whole predictor: the branch with bank address `k.pc` in bank `bk`.  In a cycle it may be predicted, the
youngest predictions of it may be squashed, and the bank may be trained: by the branch, with what came back of its oldest
prediction, or by a branch that uses none of its rows. -/
inductive Tracks (c : Bpu.Cfg) (tc : TCfg) (b : BCfg) (tg : Tage.Cfg) (recs : Nat → Meta) (pc0 : W32) (bk : Nat) (k : Key) (W : Nat) :
    TSt → List Meta → List Bool → Prop
  | start {is s os} : tRun c tc b tg recs (tInit tg pc0) is = some (s, os) → Tracks c tc b tg recs pc0 bk k W s [] []
  | cycle {s s' fl fl1 fl2 os os' i o} : Tracks c tc b tg recs pc0 bk k W s fl os → tCycle c tc b tg recs s i = some (s', o) →
      (fl1 = fl ∨ ∃ k', asked c s i bk = some k' ∧ SameRows k k' ∧ fl.length < W ∧ fl1 = fl ++ [predict tg (s.dir bk) k']) →
      ((∃ n, fl2 = fl1.take n ∧ os' = os ∧ ∀ u, trainedBy c recs o bk = some u → Apart tg k u) ∨
        (∃ n m r d, fl1.take n = m :: fl2 ∧ Agrees m r ∧ trainedBy c recs o bk = some ⟨k.pc, d, r⟩ ∧ os' = d :: os)) →
      Tracks c tc b tg recs pc0 bk k W s' fl2 os'

end Verif.Spec.TageSys
