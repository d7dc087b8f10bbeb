import Verif.Model.Front
import Verif.Spec.Imm
/-
What is seen of the front end from outside, cycle by cycle (latest first), and what a fetch group has to look like.
-/
namespace Verif.FetchStream
open Verif.Front
open Verif.Isa

/-- One cycle: a reset, a redirect by the back end, an answer of the instruction cache, a group handed to the back
end. -/
structure Ev (W : Nat) (M : Type) where
  reset : Bool
  redirect : Option W32
  resp : Option (Resp W)
  out : Option (Out W M)

variable {W : Nat} {M : Type}

/-- Where the next group handed to the back end has to start: at the address of the last redirect, or where the group
handed over after it says. -/
def want (resetPc : W32) : List (Ev W M) → W32
  | [] => resetPc
  | e :: tr =>
    if e.reset then resetPc
    else match e.redirect with
      | some a => a
      | none => match e.out with
        | some g => g.next
        | none => want resetPc tr

/-- The answers of the instruction cache since the last reset or redirect by the back end. -/
def answers : List (Ev W M) → List (Resp W)
  | [] => []
  | e :: tr => if e.reset || e.redirect.isSome then [] else e.resp.toList ++ answers tr

/-- An instruction cache that answers accepted requests in order, each at most once, and none after the request is
withdrawn: `q` are the accepted requests, `req` the one of this cycle, `kill`: all requests are withdrawn. -/
def AnsOk (kill : Bool) (q : List W32) (req : Option W32) (resp : Option (Resp W)) : Prop :=
  ∀ r, resp = some r → kill = false ∧ (q ++ req.toList).head? = some r.pc

/-- The accepted requests after the cycle. -/
def waiting (kill : Bool) (q : List W32) (req : Option W32) (resp : Option (Resp W)) : List W32 :=
  if kill then [] else if resp.isSome then (q ++ req.toList).tail else q ++ req.toList

/-- The executions. -/
inductive Run (k : Cfg) : List (Ev W M) → St W M → List W32 → Prop
  | init : Run k [] (St.init k) []
  | step {tr s q s' o} (i : Inp W M) (m : Mid W M) (resp : Option (Resp W)) :
      Run k tr s q → front1 k s i = some m → AnsOk (i.reset || gRefetch s i) q m.icReq resp →
      front2 k s i m resp = some (s', o) →
      Run k (⟨i.reset, if i.refetch then some i.refetchAddr else none, resp, o.out⟩ :: tr) s'
        (waiting (i.reset || gRefetch s i || o.inval) q m.icReq resp)

/-- The cycle waits for the instruction cache: it is not ready for a request, or owes an answer. -/
def icWaits (i : Inp W M) (q : List W32) (req : Option W32) (resp : Option (Resp W)) : Prop :=
  resp = none ∧ (i.icReady = false ∨ q ++ req.toList ≠ [])

instance (i : Inp W M) (q : List W32) (req : Option W32) (resp : Option (Resp W)) :
    Decidable (icWaits i q req resp) := by unfold icWaits; cases resp <;> infer_instance

/-- A number of cycles in which the back end takes groups, does not redirect, and gets none; `n` of them do not wait
for the instruction cache. -/
inductive Quiet (k : Cfg) : St W M → List W32 → Nat → St W M → List W32 → Prop
  | nil (s q) : Quiet k s q 0 s q
  | step {s q n s1 q1 s2 o} (i : Inp W M) (m : Mid W M) (resp : Option (Resp W)) :
      Quiet k s q n s1 q1 → front1 k s1 i = some m → AnsOk (i.reset || gRefetch s1 i) q1 m.icReq resp →
      front2 k s1 i m resp = some (s2, o) →
      i.reset = false → i.refetch = false → i.readEn = true → o.out = none →
      Quiet k s q (n + if icWaits i q1 m.icReq resp then 0 else 1) s2
        (waiting (i.reset || gRefetch s1 i || o.inval) q1 m.icReq resp)

/-- The opcode of an instruction. -/
def opcode (w : W32) : BitVec 7 := w.extractLsb' 0 7
def IsJal (w : W32) : Prop := opcode w = 0b1101111#7
def IsJalr (w : W32) : Prop := opcode w = 0b1100111#7
def IsBranch (w : W32) : Prop := opcode w = 0b1100011#7
/-- Where a `jal` goes. -/
def jalTarget (pc w : W32) : W32 := pc + ofBits (immJBit w)
/-- Where a taken branch goes. -/
def branchTarget (pc w : W32) : W32 := pc + ofBits (immBBit w)

/-- Where fetching goes on after a group of `W` words at `pc` without a taken branch: behind it, at the latest at the
end of its cache line of `line` bytes. -/
def after (W line : Nat) (pc : W32) : W32 := pc + BitVec.ofNat 32 (min (W * 4) (line - pc.toNat % line))

/-- The directions and the next address of a group agree with its instructions. -/
structure GroupOk (line : Nat) (o : Out W M) : Prop where
  /-- only valid control transfers are marked taken -/
  taken : ∀ j, o.dir j = true → o.valid j = true ∧ (IsJal (o.insts j) ∨ IsJalr (o.insts j) ∨ IsBranch (o.insts j))
  /-- unconditional jumps are always marked taken -/
  jump : ∀ j, o.valid j = true → IsJal (o.insts j) ∨ IsJalr (o.insts j) → o.dir j = true
  /-- the first marked instruction, if its target is in the instruction, gives the next address -/
  jal : ∀ j, o.dir j = true → (∀ j' < j, o.dir j' = false) → IsJal (o.insts j) →
    o.next = jalTarget (o.pc j) (o.insts j)
  branch : ∀ j, o.dir j = true → (∀ j' < j, o.dir j' = false) → IsBranch (o.insts j) →
    o.next = branchTarget (o.pc j) (o.insts j)
  /-- none marked: fetching goes on behind the group -/
  seq : ∀ j0 : Fin W, j0.val = 0 → (∀ j, o.dir j = false) → o.next = after W line (o.pc j0)

end Verif.FetchStream
