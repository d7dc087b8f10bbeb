import Verif.Model.Restore
/-
Vocabulary for C109: when core and reference hold the same machine state, and the checkpoint format.
-/
namespace Verif.Restore

/-- The I/O windows that are handed over: boot ROM, UART, PLIC, timer, DMA. -/
def InIo (x : Nat) : Prop :=
  x < 0x2000 ∨ (0x10000000 ≤ x ∧ x < 0x10000100) ∨ (0x0c000000 ≤ x ∧ x < 0x0c210000) ∨ (0x1fd0e000 ≤ x ∧ x < 0x1fd0e100) ∨
    (0x1fd0f000 ≤ x ∧ x < 0x1fd0f100)

def RamAddr (x : Nat) : Prop := 0x80000000 ≤ x ∧ x < 0xC0000000

/-- The core, whose map of registers is `rat`, will continue where the reference is: both copies of everything are the
reference's, the front end is sent to its program counter, and the words at the addresses in `D` are the same. -/
structure Same (rat : Nat → Nat) (D : BitVec 32 → Prop) (c : Core) (r : Ref) : Prop where
  regs : ∀ i < 32, c.reg (rat i) = r.arch.gpr i ∧ c.reg1 (rat i) = r.arch.gpr i
  csrs : ∀ i < 21, c.csr i = r.arch.csr i ∧ c.csr1 i = r.arch.csr i
  priv : c.priv = r.arch.priv ∧ c.priv1 = r.arch.priv
  res : c.res = (r.arch.resValid, r.arch.resAddr) ∧ c.res1 = (r.arch.resValid, r.arch.resAddr)
  pc : c.flush = true ∧ c.redirect = r.arch.pc ∧ c.pc = r.arch.pc
  mem : ∀ a, D a → PhysMem.read c.pm a = some (r.load a)

/-! ### The checkpoint format, from the writer's side -/

def put32 (v : BitVec 32) : List (BitVec 8) :=
  [(v >>> 0).setWidth 8, (v >>> 8).setWidth 8, (v >>> 16).setWidth 8, (v >>> 24).setWidth 8]

def put16 (v : BitVec 16) : List (BitVec 8) := [v.setWidth 8, (v >>> 8).setWidth 8]

def put64 (v : BitVec 64) : List (BitVec 8) := put32 (v.setWidth 32) ++ put32 ((v >>> 32).setWidth 32)

def putFlag (b : Bool) : List (BitVec 8) := [if b then 1#8 else 0#8]

def putRange (base : BitVec 32) (bs : List (BitVec 8)) : List (BitVec 8) := put32 base ++ put32 (BitVec.ofNat 32 bs.length) ++ bs

/-- What a checkpoint holds. -/
structure Image where
  priv : BitVec 16
  gpr : List (BitVec 32)
  csr : List (BitVec 32)
  pc : BitVec 32
  store : Bool
  storeWords : List (BitVec 32)
  resValid : Bool
  pad : List (BitVec 8)
  resAddr : BitVec 32
  interval : BitVec 64
  ram : List (BitVec 8)
  boot : List (BitVec 8)
  uart : List (BitVec 8)
  plic : List (BitVec 8)
  timer : List (BitVec 8)

structure Image.Ok (i : Image) : Prop where
  gpr : i.gpr.length = 32
  csr : i.csr.length = 21
  storeWords : i.storeWords.length = 3
  pad : i.pad.length = 2
  ram : i.ram.length = 0x40000000
  boot : i.boot.length = 0x2000
  uart : i.uart.length = 0x100
  plic : i.plic.length = 0x210000
  timer : i.timer.length < 0x60000000

def Image.encode (i : Image) : List (BitVec 8) :=
  put32 0x006d6552#32 ++ (put16 2#16 ++ (put16 i.priv ++ (put32 0x40000000#32 ++ (put32 4#32 ++
    (i.gpr.flatMap put32 ++ (i.csr.flatMap put32 ++ (put32 i.pc ++ (i.storeWords.flatMap put32 ++ (putFlag i.store ++
      (putFlag i.resValid ++ (i.pad ++ (put32 i.resAddr ++ (put64 i.interval ++ (i.ram ++
        (putRange 0#32 i.boot ++ (putRange 0x10000000#32 i.uart ++ (putRange 0x0c000000#32 i.plic ++
          putRange 0x1fd0e000#32 i.timer)))))))))))))))))

/-- The word of four bytes. -/
def wordAt (bs : List (BitVec 8)) (k : Nat) : BitVec 32 :=
  (bs.getD (4 * k + 3) 0#8) ++ (bs.getD (4 * k + 2) 0#8) ++ (bs.getD (4 * k + 1) 0#8) ++ (bs.getD (4 * k) 0#8)

end Verif.Restore
