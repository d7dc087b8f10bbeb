/-
The CSR file: interrupt evaluation, trap entry and return, CSR read and write, interrupt
injection (back-end/Exu/Csr.cpp, back-end/Exu/include/Csr.h) and the request the
execution unit sends it (back-end/Exu/Exu.cpp:242-278).

Simplifications: the register array is a function from the enumeration of
registers; `std::abort` for an unknown register number (Csr.h:106-115) is the outcome `none`;
the page-table-walk trace (Csr.cpp:383-390) is left out.  The order of the parts of a cycle is that of
BackTop.cpp:277-394: interrupt request, exception, write, injection.
-/
namespace Verif.Csr

/-- `enum_csr`, Csr.h:38-60. -/
inductive Reg where
  | mtvec | mepc | mcause | mie | mip | mtval | mscratch | mstatus | mideleg | medeleg
  | sepc | stvec | scause | sscratch | stval | sstatus | sie | sip | satp | mhartid | misa
  deriving DecidableEq, Repr

/-- `cvt_number_to_csr`, Csr.h:62-114 with the numbers of Csr.h:12-36. -/
def cvt (i : Nat) : Option Reg :=
  match i with
  | 0x305 => some .mtvec | 0x341 => some .mepc | 0x342 => some .mcause | 0x304 => some .mie
  | 0x344 => some .mip | 0x343 => some .mtval | 0x340 => some .mscratch | 0x300 => some .mstatus
  | 0x303 => some .mideleg | 0x302 => some .medeleg | 0x141 => some .sepc | 0x105 => some .stvec
  | 0x142 => some .scause | 0x140 => some .sscratch | 0x143 => some .stval | 0x100 => some .sstatus
  | 0x104 => some .sie | 0x144 => some .sip | 0x180 => some .satp | 0xf14 => some .mhartid
  | 0x301 => some .misa
  | _ => none

abbrev File := Reg → BitVec 32

/-- Assignment to one register. -/
def set (f : File) (r : Reg) (v : BitVec 32) : File := fun q => if q = r then v else f q

/-- Constants, diff/include/ref.h:33-45. -/
abbrev MIE : BitVec 32 := 1#32 <<< 3
abbrev MPIE : BitVec 32 := 1#32 <<< 7
abbrev SIE : BitVec 32 := 1#32 <<< 1
abbrev SPIE : BitVec 32 := 1#32 <<< 5
abbrev MPP : BitVec 32 := 3#32 <<< 11
abbrev SPP : BitVec 32 := 1#32 <<< 8
abbrev SSIP : BitVec 32 := 1#32 <<< 1
abbrev MSIP : BitVec 32 := 1#32 <<< 3
abbrev STIP : BitVec 32 := 1#32 <<< 5
abbrev MTIP : BitVec 32 := 1#32 <<< 7
abbrev SEIP : BitVec 32 := 1#32 <<< 9
abbrev MEIP : BitVec 32 := 1#32 <<< 11

/-- `sstatus_mask`, `sie_mask`, `sip_mask`, `mie_mask`, `mip_mask`, `mstatus_mask`, Csr.cpp:210, 346-347, 357-358,
370-371. -/
abbrev sstatusMask : BitVec 32 := 0x800DE133#32
abbrev mstatusMask : BitVec 32 := 0x807FF9BB#32
abbrev sieMask : BitVec 32 := 0x333#32
abbrev mieMask : BitVec 32 := 0xbbb#32

/-- C's conversion of a flag word to `bool`. -/
def on (x mask : BitVec 32) : Bool := x &&& mask != 0#32

/-- `IrqState`, Csr.cpp:7-14. -/
structure Irq where
  mSoft : Bool
  mTimer : Bool
  mExt : Bool
  sSoft : Bool
  sTimer : Bool
  sExt : Bool
  deriving DecidableEq, Repr

/-- `eval_interrupts`, Csr.cpp:16-49. -/
def evalInterrupts (mstatus mie mip mideleg : BitVec 32) (priv : Nat) : Irq :=
  let mOn := decide (priv < 3) || on mstatus MIE
  let sOn := decide (priv < 1) || (decide (priv = 1) && on mstatus SIE)
  let m (b : BitVec 32) := on mip b && on mie b && !on mideleg b && mOn
  let s (mb sb : BitVec 32) :=
    ((on mip mb && on mie mb && on mideleg mb) || (on mip sb && on mie sb)) && (decide (priv < 2) && sOn)
  { mSoft := m MSIP, mTimer := m MTIP, mExt := m MEIP
    sSoft := s MSIP SSIP, sTimer := s MTIP STIP, sExt := s MEIP SEIP }

def Irq.mAny (q : Irq) : Bool := q.mSoft || q.mTimer || q.mExt
def Irq.sAny (q : Irq) : Bool := q.sSoft || q.sTimer || q.sExt

/-- `reg` state of `Csr`, Csr.h:148-159: registers, privilege, and the write latched at execution. -/
structure State where
  file : File
  priv : Nat
  we : Bool
  idx : Nat
  wcmd : Nat
  wdata : BitVec 32

/-- Reset: registers of the zero-initialised object, then `Csr::init`, Csr.cpp:51-54; `privilege = 0b11`, Csr.h:149. -/
def State.init : State := ⟨fun r => if r = .misa then 0x40141103#32 else 0#32, 3, false, 0, 0, 0#32⟩

def State.irq (s : State) : Irq :=
  evalInterrupts (s.file .mstatus) (s.file .mie) (s.file .mip) (s.file .mideleg) s.priv

/-- `comb_interrupt`, Csr.cpp:80-90. -/
def State.interruptReq (s : State) : Bool :=
  s.irq.mSoft || s.irq.mTimer || s.irq.mExt || s.irq.sSoft || s.irq.sTimer || s.irq.sExt

/-- `exe2csr`. -/
structure Exe where
  we : Bool
  re : Bool
  idx : Nat
  wcmd : Nat
  wdata : BitVec 32
  deriving DecidableEq, Repr

/-- `rob2csr` and the fields of `rob_bcast` used by `Csr`. -/
structure Rob where
  commit : Bool
  interruptResp : Bool
  ecall : Bool
  pfInst : Bool
  pfLoad : Bool
  pfStore : Bool
  illegal : Bool
  mret : Bool
  sret : Bool
  pc : BitVec 32
  trapVal : BitVec 32
  deriving DecidableEq, Repr

/-- `interrupt_inject`: external and timer line, each with a valid flag. -/
structure Inject where
  ext : Option Bool
  timer : Option Bool
  deriving DecidableEq, Repr

/-- `csr2front`: where to continue. -/
structure Front where
  trapPc : Option (BitVec 32)
  epc : Option (BitVec 32)
  deriving DecidableEq, Repr

/-- Bit `i` of the delegation register, Csr.cpp:133-140. -/
def bit (x : BitVec 32) (i : Nat) : Bool := (x >>> i) &&& 1#32 != 0#32

/-- `MTrap`, Csr.cpp:143-157. -/
def mTrap (s : State) (r : Rob) : Bool :=
  let d := s.file .medeleg
  (s.irq.mAny && r.interruptResp) ||
    (r.ecall && decide (s.priv = 0) && !bit d 8) ||
    (r.ecall && decide (s.priv = 1) && !bit d 9) ||
    (r.ecall && decide (s.priv = 3)) ||
    (r.pfInst && !bit d 12) || (r.pfLoad && !bit d 13) || (r.pfStore && !bit d 15) ||
    (r.illegal && !bit d 2)

/-- `STrap`, Csr.cpp:159-165. -/
def sTrap (s : State) (r : Rob) : Bool :=
  let d := s.file .medeleg
  (s.irq.sAny && r.interruptResp) ||
    (r.ecall && decide (s.priv = 0) && bit d 8) ||
    (r.ecall && decide (s.priv = 1) && bit d 9) ||
    (r.pfInst && bit d 12) || (r.pfLoad && bit d 13) || (r.pfStore && bit d 15) ||
    (r.illegal && bit d 2)

/-- `cause` of a trap to M, Csr.cpp:171-191. -/
def mCause (s : State) (r : Rob) : BitVec 32 :=
  let d := s.file .medeleg
  let q := s.irq
  (if q.mSoft || q.mTimer || q.mExt then 1#32 <<< 31 else 0#32) +
  (if q.mSoft then 3#32
   else if q.mTimer then 7#32
   else if q.mExt || (r.ecall && decide (s.priv = 3) && !bit d 8) then 11#32
   else if r.ecall && decide (s.priv = 0) && !bit d 8 then 8#32
   else if r.ecall && decide (s.priv = 1) && !bit d 9 then 9#32
   else if r.pfInst && !bit d 12 then 12#32
   else if r.pfLoad && !bit d 13 then 13#32
   else if r.pfStore && !bit d 15 then 15#32
   else if r.illegal then 2#32 else 0#32)

/-- `cause` of a trap to S, Csr.cpp:226-244. -/
def sCause (s : State) (r : Rob) : BitVec 32 :=
  let d := s.file .medeleg
  let q := s.irq
  (if q.sSoft || q.sTimer || q.sExt then 1#32 <<< 31 else 0#32) +
  (if q.sExt || (r.ecall && decide (s.priv = 1) && bit d 9) then 9#32
   else if q.sTimer then 5#32
   else if r.ecall && decide (s.priv = 0) && bit d 8 then 8#32
   else if q.sSoft then 1#32
   else if r.pfInst && bit d 12 then 12#32
   else if r.pfLoad && bit d 13 then 13#32
   else if r.pfStore && bit d 15 then 15#32
   else if r.illegal && bit d 2 then 2#32 else 0#32)

/-- `trap_pc`, Csr.cpp:193-198, 246-251. -/
def vector (tvec cause : BitVec 32) : BitVec 32 :=
  if on tvec 1#32 && on cause (1#32 <<< 31) then
    (tvec &&& 0xfffffffc#32) + 4#32 * (cause &&& 0x7fffffff#32)
  else tvec

/-- Copy of a flag: `if (x & from) x |= to; else x &= ~to;`. -/
def copyFlag (x fromBit toBit : BitVec 32) : BitVec 32 :=
  if on x fromBit then x ||| toBit else x &&& ~~~toBit

/-- `mstatus` on a trap to M, Csr.cpp:200-207. -/
def mstatusTrap (x : BitVec 32) (priv : Nat) : BitVec 32 :=
  copyFlag ((x &&& ~~~MPP) ||| ((BitVec.ofNat 32 priv &&& 3#32) <<< 11)) MIE MPIE &&& ~~~MIE

/-- `sstatus` on a trap to S, Csr.cpp:253-267. -/
def sstatusTrap (x : BitVec 32) (priv : Nat) : BitVec 32 :=
  copyFlag (if priv = 1 then x ||| SPP else x &&& ~~~SPP) SIE SPIE &&& ~~~SIE

/-- `mstatus` on MRET, Csr.cpp:285-297. -/
def mstatusRet (x : BitVec 32) : BitVec 32 := (copyFlag x MPIE MIE ||| MPIE) &&& ~~~MPP

/-- `sstatus` on SRET, Csr.cpp:305-317. -/
def sstatusRet (x : BitVec 32) : BitVec 32 := (copyFlag x SPIE SIE ||| SPIE) &&& ~~~SPP

/-- `mstatus` with its supervisor part replaced, Csr.cpp:270-273, 319-322. -/
def mergeS (mstatus sstatus : BitVec 32) : BitVec 32 :=
  (mstatus &&& ~~~sstatusMask) ||| (sstatus &&& sstatusMask)

/-- `comb_exception`, Csr.cpp:116-326: next registers, next privilege, where to continue. -/
def exception (s : State) (r : Rob) : File × Nat × Front :=
  let f := s.file
  if mTrap s r then
    let ms := mstatusTrap (f .mstatus) s.priv
    let g := set (set (set (set f .mepc r.pc) .mcause (mCause s r)) .mstatus ms) .sstatus (ms &&& sstatusMask)
    (set g .mtval (if r.pfStore || r.pfLoad || r.pfInst then r.trapVal else if r.illegal then r.trapVal else 0#32),
      3, ⟨some (vector (f .mtvec) (mCause s r)), none⟩)
  else if sTrap s r then
    let ss := sstatusTrap (f .sstatus) s.priv
    let g := set (set (set (set f .sepc r.pc) .scause (sCause s r)) .sstatus ss) .mstatus (mergeS (f .mstatus) ss)
    (set g .stval (if r.pfStore || r.pfLoad || r.pfInst || r.illegal then r.trapVal else 0#32),
      1, ⟨some (vector (f .stvec) (sCause s r)), none⟩)
  else if r.mret then
    let ms := mstatusRet (f .mstatus)
    (set (set f .mstatus ms) .sstatus (ms &&& sstatusMask),
      (((copyFlag (f .mstatus) MPIE MIE) >>> 11) &&& 3#32).toNat, ⟨none, some (f .mepc)⟩)
  else if r.sret then
    let ss := sstatusRet (f .sstatus)
    (set (set f .sstatus ss) .mstatus (mergeS (f .mstatus) ss),
      (((copyFlag (f .sstatus) SPIE SIE) >>> 8) &&& 1#32).toNat, ⟨none, some (f .sepc)⟩)
  else (f, s.priv, ⟨none, none⟩)

/-- `csr_wdata` after the command has been applied, Csr.cpp:337-343 (CSR_S = 2, CSR_C = 3). -/
def combine (wcmd : Nat) (wdata old : BitVec 32) : BitVec 32 :=
  if wcmd = 2 then wdata ||| old else if wcmd = 3 then ~~~wdata &&& old else wdata

/-- The committing half of `comb_csr_write`, Csr.cpp:336-393: `f` is the current file, `g` the next one
as left by `comb_exception`. -/
def applyWrite (f g : File) (r : Reg) (w : BitVec 32) : File :=
  match r with
  | .sie =>
    let m := (f .mie &&& ~~~sieMask) ||| (w &&& sieMask)
    set (set g .mie m) .sie (m &&& sieMask)
  | .mie => set (set g .mie (w &&& mieMask)) .sie (w &&& mieMask &&& sieMask)
  | .sip =>
    let m := (f .mip &&& ~~~sieMask) ||| (w &&& sieMask)
    set (set g .mip m) .sip (m &&& sieMask)
  | .mip => set (set g .mip (w &&& mieMask)) .sip (w &&& mieMask &&& sieMask)
  | .sstatus =>
    let m := (f .mstatus &&& ~~~sstatusMask) ||| (w &&& sstatusMask)
    set (set g .mstatus m) .sstatus (m &&& sstatusMask)
  | .mstatus =>
    let m := (f .mstatus &&& ~~~mstatusMask) ||| (w &&& mstatusMask)
    set (set g .mstatus m) .sstatus (m &&& sstatusMask)
  | r => set g r w

/-- One interrupt line, Csr.cpp:97-104, 106-113. -/
def injectLine (line : Option Bool) (b : BitVec 32) (g : File) : File :=
  match line with
  | none => g
  | some true =>
    let m := g .mip ||| b
    set (set g .mip m) .sip (m &&& sieMask)
  | some false =>
    let m := g .mip &&& ~~~b
    set (set g .mip m) .sip (m &&& sieMask)

/-- `comb_interrupt_inject`, Csr.cpp:92-114. -/
def inject (x : Inject) (g : File) : File := injectLine x.timer MTIP (injectLine x.ext MEIP g)

/-- `comb_csr_read`, Csr.cpp:74-78: the value sent to the execution unit (`none`: abort). -/
def read (s : State) (i : Nat) : Option (BitVec 32) := (cvt i).map s.file

/-- One cycle: `comb_begin`, `comb_exception`, `comb_csr_write` (Csr.cpp:328-397), `comb_interrupt_inject`,
`seq`.  `none`: the program aborts on an unknown register number. -/
def step (e : Exe) (r : Rob) (x : Inject) (s : State) : Option State :=
  let (g, p, _) := exception s r
  let latch : State := if e.we then ⟨s.file, p, true, e.idx, e.wcmd, e.wdata⟩
    else ⟨s.file, p, s.we, s.idx, s.wcmd, s.wdata⟩
  if r.commit && s.we then
    (cvt s.idx).map (fun c =>
      { latch with file := inject x (applyWrite s.file g c (combine s.wcmd s.wdata (s.file c))), we := false })
  else some { latch with file := inject x g }

/-- `comb_to_csr`, Exu.cpp:264-278: the request for a CSR instruction with function code `f3`, immediate field
`imm`, destination register `dest` and source value `src`. -/
def request (f3 : Nat) (imm : BitVec 32) (dest idx : Nat) (useImm : Bool) (src : BitVec 32) : Exe :=
  let rw := decide (f3 = 1) || decide (f3 = 5)
  { we := rw || imm != 0#32
    re := !rw || dest != 0
    idx := idx
    wcmd := f3 % 4
    wdata := if useImm then imm else src }

end Verif.Csr
