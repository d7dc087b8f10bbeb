/-
Sv32 address translation, from the RISC-V privileged manual (section "Virtual Address Translation
Process"), in arithmetic on natural numbers.  Nothing here refers to the model.

Physical addresses of the machine have 32 bits; the two extra bits Sv32 allows are dropped.
-/
namespace Verif.Spec.Sv32

inductive Access
  | fetch | load | store
  deriving DecidableEq, Repr

/-- Privilege of the access (translation is not used in machine mode). -/
inductive Mode
  | user | supervisor
  deriving DecidableEq, Repr

/-- Flag bits of a page-table entry. -/
def flag (pte n : Nat) : Prop := pte / 2 ^ n % 2 = 1
instance (pte n) : Decidable (flag pte n) := inferInstanceAs (Decidable (_ = _))

abbrev V (pte : Nat) := flag pte 0
abbrev R (pte : Nat) := flag pte 1
abbrev W (pte : Nat) := flag pte 2
abbrev X (pte : Nat) := flag pte 3
abbrev U (pte : Nat) := flag pte 4
abbrev A (pte : Nat) := flag pte 6
abbrev D (pte : Nat) := flag pte 7

/-- Physical page number of an entry. -/
def ppn (pte : Nat) : Nat := pte / 2 ^ 10

/-- `VPN[i]`. -/
def vpn (va i : Nat) : Nat := va / 2 ^ (12 + 10 * i) % 2 ^ 10

/-- Does a leaf allow the access? -/
def permitted (pte : Nat) (acc : Access) (mode : Mode) (sum mxr : Bool) : Prop :=
  (match acc with
    | .fetch => X pte
    | .load => R pte ∨ (mxr = true ∧ X pte)
    | .store => W pte) ∧
  (match mode with
    | .user => U pte
    | .supervisor => U pte → acc ≠ .fetch ∧ sum = true)

instance (pte acc mode sum mxr) : Decidable (permitted pte acc mode sum mxr) := by
  unfold permitted; cases acc <;> cases mode <;> exact inferInstance

/-- A leaf at level `i`: superpage alignment, permission, accessed and dirty bits. -/
def leafOk (pte i : Nat) (acc : Access) (mode : Mode) (sum mxr : Bool) : Prop :=
  permitted pte acc mode sum mxr ∧ ppn pte % 2 ^ (10 * i) = 0 ∧ A pte ∧ (acc = .store → D pte)

instance (pte i acc mode sum mxr) : Decidable (leafOk pte i acc mode sum mxr) := by
  unfold leafOk; exact inferInstance

/-- The walk with `n` levels left: `a` is the address of the page table of level `n - 1`.  The result is the
physical address, or `none` for a page fault. -/
def walk (mem : Nat → Nat) (va : Nat) (acc : Access) (mode : Mode) (sum mxr : Bool) : Nat → Nat → Option Nat
  | 0, _ => none
  | i + 1, a =>
    let pte := mem (a + 4 * vpn va i)
    if ¬ V pte ∨ (¬ R pte ∧ W pte) then none
    else if R pte ∨ X pte then
      if leafOk pte i acc mode sum mxr then some (ppn pte * 2 ^ 12 + va % 2 ^ (12 + 10 * i)) else none
    else walk mem va acc mode sum mxr i (ppn pte * 2 ^ 12)

/-- Sv32: two levels, root table from `satp`. -/
def translate (mem : Nat → Nat) (satp va : Nat) (acc : Access) (mode : Mode) (sum mxr : Bool) : Option Nat :=
  walk mem va acc mode sum mxr 2 (satp % 2 ^ 22 * 2 ^ 12)

/-! ### Address spaces -/

/-- Global mapping. -/
abbrev G (pte : Nat) := flag pte 5

/-- The leaf entry, with its level, that the walk of an address ends at, whatever the access; `none` if the walk
ends in a page fault for every access. -/
def leafFrom (mem : Nat → Nat) (va : Nat) : Nat → Nat → Option (Nat × Nat)
  | 0, _ => none
  | i + 1, a =>
    let pte := mem (a + 4 * vpn va i)
    if ¬ V pte ∨ (¬ R pte ∧ W pte) then none
    else if R pte ∨ X pte then (if ppn pte % 2 ^ (10 * i) = 0 then some (pte, i) else none)
    else leafFrom mem va i (ppn pte * 2 ^ 12)

/-- The leaf an address is mapped by under a value of satp. -/
def leaf (mem : Nat → Nat) (satp va : Nat) : Option (Nat × Nat) :=
  leafFrom mem va 2 (satp % 2 ^ 22 * 2 ^ 12)

/-- Address-space identifier. -/
def asid (satp : Nat) : Nat := satp / 2 ^ 22 % 2 ^ 9

/-- What software owes a TLB: two values of satp with the same address-space identifier map every address alike, and
an address that is mapped globally under one value is mapped alike under all. -/
def Coherent (mem : Nat → Nat) (satps : List Nat) : Prop :=
  ∀ s ∈ satps, ∀ t ∈ satps, ∀ va, va < 2 ^ 32 →
    (asid s = asid t ∨ ∃ p, leaf mem s va = some p ∧ G p.1) → leaf mem t va = leaf mem s va

end Verif.Spec.Sv32
