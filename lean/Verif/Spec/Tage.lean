import Verif.Model.Tage
/-
Vocabulary for the direction predictor's properties.
-/
namespace Verif.Spec.Tage
open Verif.Bpu (W32)
open Verif.Tage

/-- Thresholds under which only the two middle values of a three-bit counter (3 and 4) count as weak. -/
structure Cfg.Ok (c : Cfg) : Prop where
  wl : 3 ≤ c.weakLow
  wh : c.weakHigh ≤ 4
  sl : 3 ≤ c.scWeakLow
  sh : c.scWeakHigh ≤ 4

/-- Counter ranges that fit, with the initial values inside. -/
structure Cfg.Sized (c : Cfg) : Prop where
  scl : c.sclInit ≤ c.sclMax
  theta : c.thetaMin ≤ c.thetaInit ∧ c.thetaInit ≤ c.thetaMax
  alt : c.altInit ≤ c.altMax

/-- Table `i` knows the branch: the stored tag in its row is the branch's tag. -/
def Hit (c : Cfg) (s : St) (k : Key) (i : Nat) : Prop := i < 4 ∧ (row c s k i).tag = tagOf c k.pc k.fh i

/-- `i` is the table with the longest history that knows the branch. -/
def Longest (c : Cfg) (s : St) (k : Key) (i : Nat) : Prop := Hit c s k i ∧ ∀ j, Hit c s k j → j ≤ i

/-- No table knows it. -/
def Unknown (c : Cfg) (s : St) (k : Key) : Prop := ∀ j, ¬ Hit c s k j

/-- Every counter within the bits it is stored in. -/
structure InRange (c : Cfg) (s : St) : Prop where
  base : ∀ b, s.base b ≤ 3
  cnt : ∀ i r, (s.tn i r).cnt ≤ 7
  useful : ∀ i r, (s.tn i r).useful ≤ 3
  sc : ∀ x, s.sc x ≤ 3
  scl : ∀ t x, s.scl t x ≤ c.sclMax
  theta : c.thetaMin ≤ s.theta ∧ s.theta ≤ c.thetaMax
  alt : s.useAlt ≤ c.altMax
  iter : ∀ x, (s.loop x).count ≤ c.iterMax ∧ (s.loop x).limit ≤ c.iterMax
  conf : ∀ x, (s.loop x).conf ≤ c.confMax
  dir : ∀ x, (s.loop x).valid = true → (s.loop x).dir = true

/-- Trainings one after the other. -/
def train (c : Cfg) (s : St) (us : List Upd) : St := us.foldl (update c) s

/-- What happens while one branch is watched: the branch itself is predicted and then trained with its outcome, or some other
branch is trained. -/
inductive Ev where
  | own (dir : Bool)
  | other (u : Upd)

/-- One event. -/
def step (c : Cfg) (k : Key) (s : St) : Ev → St
  | .own d => update c s ⟨k.pc, d, predict c s k⟩
  | .other u => update c s u

def run (c : Cfg) (k : Key) (s : St) (es : List Ev) : St := es.foldl (step c k) s

/-- The training of the other branch uses none of the rows of the watched one. -/
def Apart (c : Cfg) (k : Key) (u : Upd) : Prop :=
  (∀ i, i < 4 → u.m.idx i % 2 ^ c.idxBits ≠ idxOf c k.pc k.fh i) ∧ (u.m.pcpn < 4 ∨ baseIdx c u.pc ≠ baseIdx c k.pc)

/-- Outcomes of the watched branch. -/
def outcomes (es : List Ev) : List Bool := es.filterMap fun | .own d => some d | .other _ => none

/-! ### Loops -/

/-- A training that carries the loop entry and tag of `pc`. -/
def ForLoop (c : Cfg) (pc : W32) (u : Upd) : Prop := u.m.loopIdx = loopIdx c pc ∧ u.m.loopTag = loopTag c pc

instance (c : Cfg) (pc : W32) (u : Upd) : Decidable (ForLoop c pc u) := by unfold ForLoop; exact inferInstance

/-- The outcomes trained into the loop entry of `pc`. -/
def loopOutcomes (c : Cfg) (pc : W32) (us : List Upd) : List Bool :=
  (us.filter (fun u => decide (ForLoop c pc u))).map (·.dir)

/-- Nobody else uses the loop entry. -/
def LoopAlone (c : Cfg) (pc : W32) (us : List Upd) : Prop :=
  ∀ u ∈ us, ForLoop c pc u ∨ u.m.loopIdx % 2 ^ c.loopBits ≠ loopIdx c pc

/-- `m` executions of a loop whose branch is taken `n` times and then falls through. -/
def trips (n m : Nat) : List Bool := (List.replicate m (List.replicate n true ++ [false])).flatten

end Verif.Spec.Tage
