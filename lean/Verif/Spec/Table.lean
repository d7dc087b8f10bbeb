import Verif.Model.Table
/- What the storage tables should contain: each byte is the one last written to it. -/
namespace Verif.Table

/-- The sizes do not wrap. -/
structure Fits (c : Cfg) : Prop where
  bits : c.chunkBits + 7 < 2 ^ 32
  row : c.chunks * chunkBytes c < 2 ^ 32

/-- The write is carried out: it is for a row of the table and its vectors are long enough. -/
def Write.takes (c : Cfg) (w : Write) : Prop :=
  w.enable = true ∧ w.address < c.rows ∧ rowBytes c ≤ w.payload.length ∧ c.chunks ≤ w.chunkEnable.length

instance (c : Cfg) (w : Write) : Decidable (w.takes c) := by unfold Write.takes; exact inferInstance

/-- Byte `j` of chunk `ch` of row `a` after the writes `ws` (0 if none was to it). -/
def latest (c : Cfg) (ws : List Write) (a ch j : Nat) : Byte :=
  ws.foldl (fun b w => if w.takes c ∧ w.address = a ∧ w.chunkEnable.getD ch false = true then
    w.payload.getD (ch * chunkBytes c + j) 0#8 else b) 0#8

/-- The writes one after the other. -/
def writeAll (c : Cfg) : List Byte → List Write → Option (List Byte)
  | st, [] => some st
  | st, w :: ws => (writeChunks c st w).bind fun st => writeAll c st ws

/-- Cycles of the SRAM table. -/
def Sram.run (c : Cfg) (t : Timing) : Sram → List (Read × Write) → Option Sram
  | s, [] => some s
  | s, x :: l => (Sram.seq c t s x.1 x.2).bind fun s => Sram.run c t s l

/-! ### Last-level cache -/

/-- Byte `p` of row `x` of table `b` after the cycles `os`: cleared by an invalidation, written by an enabled byte of a write to the part of the row that
belongs to the way. -/
def llcLatest (k : LlcCfg) (b : Tab) (os : List Out) (x p : Nat) : Byte :=
  os.foldl (fun v o => if o.invalidate then 0#8 else
    let q := o.req b
    let at_ := q.way * k.unit b
    if q.enable = true ∧ q.write = true ∧ q.index = x ∧ at_ ≤ p ∧ p - at_ < q.payload.length ∧ q.byteEnable.getD (p - at_) false = true then
      q.payload.getD (p - at_) 0#8 else v) 0#8

def Llc.run (k : LlcCfg) : Llc → List Out → Option Llc
  | s, [] => some s
  | s, o :: l => (Llc.seq k s o).bind fun s => Llc.run k s l

/-- A cycle without a lookup or an invalidation (there may be writes). -/
def Out.Quiet (o : Out) : Prop := o.invalidate = false ∧ o.any = false

/-- Set `i` is being answered: the rows of the four tables. -/
def Llc.Answers (k : LlcCfg) (s : Llc) (i : Nat) : Prop :=
  ∃ f, s.comb k = some f ∧ ∀ b, ∃ row, f b = some (some row) ∧ row.length = k.row b ∧ ∀ p < k.row b, row[p]? = (s.tab b)[i * k.row b + p]?

end Verif.Table
