import Verif.Proofs.Whole
/-
Execution of an instruction, and the simulation of the composed stages by `Core`.
-/
namespace Verif.WholeProofs
open Verif.Spine Verif.Whole Verif.SpineProofs
open Verif.Core (W Sem Isa Item Fetched Task)
open Verif.BranchWindow (Flight)
open Verif.RenWindow (Entry)
open Verif.RobQueue (insts)
open Verif.DispatchGroup (waiting)
open Verif.Props (C106_ordered)

variable {n : Nat} {M : Type} {prog : W → Sem M}
variable {k : Cfg} {s : State n M} {c : Input n M}
variable {bw : BranchWindow.Sys n} {rw : RenWindow.Sys} {Z : List (Flight n × Sig)} {g : Nat → BitVec 3}

/-- What `Core` calls the task of a flight. -/
def task (s : State n M) (f : Flight n) : Task := taskOf s (ent s.sp.info f) f.seq

theorem takeWhile_at {u : Nat} : ∀ (l r : List Nat), u ∉ l → (l ++ u :: r).takeWhile (· != u) = l
  | [], r, _ => by simp
  | a :: l, r, h => by
    have ha : a ≠ u := fun e => h (by rw [e]; exact List.mem_cons_self)
    rw [List.cons_append, List.takeWhile_cons, if_pos (by simpa using ha), takeWhile_at l r (fun e => h (List.mem_cons_of_mem _ e))]

/-- Where an instruction in flight stands. -/
theorem stand (hk : Good k) (hr : Spine.Reach k s.sp) (hl : Link k s.sp bw rw Z g) {u : Nat} (hu : u ∈ ids k s) :
    ∃ A f B, flights s Z = A ++ f :: B ∧ f.seq = u ∧ older k s u = A.map (·.seq) ∧ u ∉ A.map (·.seq) ∧ u ∉ B.map (·.seq) ∧
      (coreOf s rw (ids k s)).tasks = A.map (task s) ++ task s f :: B.map (task s) := by
  have hfl := ids_flights hl
  rw [hfl] at hu
  obtain ⟨f, hf, rfl⟩ := List.mem_map.1 hu
  obtain ⟨A, B, hAB⟩ := List.append_of_mem hf
  have hs := (C106_ordered hk hr).1
  rw [inflight_eq, hfl, hAB, List.map_append, List.map_cons] at hs
  have hs := (List.pairwise_append.1 hs).1
  rw [List.pairwise_append] at hs
  have h1 : f.seq ∉ A.map (·.seq) := fun h => Nat.lt_irrefl _ (hs.2.2 _ h _ List.mem_cons_self)
  have h2 : f.seq ∉ B.map (·.seq) := fun h => Nat.lt_irrefl _ ((List.pairwise_cons.1 hs.2.1).1 _ h)
  refine ⟨A, f, B, hAB, rfl, ?_, h1, h2, ?_⟩
  · unfold older
    rw [hfl, hAB, List.map_append, List.map_cons]
    exact takeWhile_at _ _ h1
  · rw [tasks_flights hl, hAB, List.map_append, List.map_cons]; rfl

theorem after_flights (s : State n M) (A : List (Flight n)) :
    Core.after prog s.isa (A.map (task s)) = isaAfter prog s (A.map (·.seq)) := by
  unfold Core.after isaAfter
  rw [List.foldl_map, List.foldl_map]
  rfl

theorem settled_flights {s : State n M} {A : List (Flight n)} {p : Nat} (h : Whole.Settled s (A.map (·.seq)) p) :
    Core.Settled (A.map (task s)) p := by
  intro j hj hd hn hw
  obtain ⟨f, hf, rfl⟩ := List.mem_map.1 hj
  exact h f.seq (List.mem_map_of_mem hf) hd hn hw

theorem canRun (hk : Good k) (hr : Spine.Reach k s.sp) (hl : Link k s.sp bw rw Z g) {u : Nat} (hc : CanRun prog k s u) :
    ∃ pre t post, (coreOf s rw (ids k s)).tasks = pre ++ t :: post ∧ Core.CanRun prog pre t ∧
      Core.finish prog (coreOf s rw (ids k s)) pre t post = coreOf (finish prog k s u) rw (ids k (finish prog k s u)) := by
  have hu : u ∈ ids k s := List.mem_append_left _ hc.mem
  obtain ⟨A, f, B, hAB, rfl, hold, h1, h2, ht⟩ := stand hk hr hl hu
  refine ⟨A.map (task s), task s f, B.map (task s), ht, ⟨hc.fresh, fun h => ?_, fun h => ?_⟩, ?_⟩
  · exact settled_flights (by rw [← hold]; exact hc.one h)
  · exact settled_flights (by rw [← hold]; exact hc.two h)
  · have hlink : Link k (finish prog k s f.seq).sp bw rw Z g := hl
    have hother : ∀ l : List (Flight n), f.seq ∉ l.map (·.seq) → l.map (task (finish prog k s f.seq)) = l.map (task s) := by
      intro l hl
      apply List.map_congr_left
      intro x hx
      have hne : x.seq ≠ f.seq := fun e => hl (by rw [← e]; exact List.mem_map_of_mem hx)
      show (⟨_, _, _, _, _, (if x.seq = f.seq then true else s.done x.seq), (if x.seq = f.seq then _ else s.act x.seq), s.wrote x.seq⟩ : Task) = _
      rw [if_neg hne, if_neg hne]; rfl
    refine core_ext rfl rfl ?_ ?_ rfl rfl rfl
    · have e : (coreOf (finish prog k s f.seq) rw (ids k (finish prog k s f.seq))).tasks =
          (flights s Z).map (task (finish prog k s f.seq)) := tasks_flights (s := finish prog k s f.seq) hlink
      rw [e, hAB, List.map_append, List.map_cons, hother A h1, hother B h2]
      show A.map (task s) ++ _ :: B.map (task s) = A.map (task s) ++ _ :: B.map (task s)
      congr 2
      show (⟨_, _, _, _, _, true, (prog (s.pay f.seq).1).next (Core.after prog s.isa (A.map (task s))).ext _ _, _⟩ : Task) =
        ⟨_, _, _, _, _, (if f.seq = f.seq then true else s.done f.seq),
          (if f.seq = f.seq then (prog (s.pay f.seq).1).next (isaAfter prog s (older k s f.seq)).ext (arg1 prog s f.seq) (arg2 prog s f.seq) else s.act f.seq), _⟩
      rw [if_pos rfl, if_pos rfl, after_flights, hold]; rfl
    · show (if (s.sp.info f.seq).destEn then Ring.upd s.prf (s.sp.info f.seq).preg
          ((prog (s.pay f.seq).1).value (Core.after prog s.isa (A.map (task s))).ext _ _) else s.prf) =
        (if (s.sp.info f.seq).destEn then Ring.upd s.prf (s.sp.info f.seq).preg
          ((prog (s.pay f.seq).1).value (isaAfter prog s (older k s f.seq)).ext (arg1 prog s f.seq) (arg2 prog s f.seq)) else s.prf)
      rw [after_flights, hold]; rfl

theorem canWrite (hk : Good k) (hr : Spine.Reach k s.sp) (hl : Link k s.sp bw rw Z g) {u : Nat} (hc : CanWrite prog k s u) :
    ∃ pre t post, (coreOf s rw (ids k s)).tasks = pre ++ t :: post ∧ Core.CanWrite prog pre t ∧
      Core.write prog (coreOf s rw (ids k s)) pre t post = coreOf (write prog k s u) rw (ids k (write prog k s u)) := by
  have hu : u ∈ ids k s := List.mem_append_left _ hc.mem
  obtain ⟨A, f, B, hAB, rfl, hold, h1, h2, ht⟩ := stand hk hr hl hu
  refine ⟨A.map (task s), task s f, B.map (task s), ht, ⟨hc.fresh, fun h => ?_, fun h => ?_⟩, ?_⟩
  · exact (hc.one h).imp (fun h => settled_flights (by rw [← hold]; exact h)) id
  · exact (hc.two h).imp (fun h => settled_flights (by rw [← hold]; exact h)) id
  · have hlink : Link k (write prog k s f.seq).sp bw rw Z g := hl
    have hother : ∀ l : List (Flight n), f.seq ∉ l.map (·.seq) → l.map (task (write prog k s f.seq)) = l.map (task s) := by
      intro l hl
      apply List.map_congr_left
      intro x hx
      have hne : x.seq ≠ f.seq := fun e => hl (by rw [← e]; exact List.mem_map_of_mem hx)
      show (⟨_, _, _, _, _, _, _, (if x.seq = f.seq then true else s.wrote x.seq)⟩ : Task) = _
      rw [if_neg hne]; rfl
    refine core_ext rfl rfl ?_ ?_ rfl rfl rfl
    · have e : (coreOf (write prog k s f.seq) rw (ids k (write prog k s f.seq))).tasks =
          (flights s Z).map (task (write prog k s f.seq)) := tasks_flights (s := write prog k s f.seq) hlink
      rw [e, hAB, List.map_append, List.map_cons, hother A h1, hother B h2]
      show A.map (task s) ++ _ :: B.map (task s) = A.map (task s) ++ _ :: B.map (task s)
      congr 2
      show (⟨_, _, _, _, _, s.done f.seq, s.act f.seq, true⟩ : Task) =
        ⟨_, _, _, _, _, s.done f.seq, s.act f.seq, (if f.seq = f.seq then true else s.wrote f.seq)⟩
      rw [if_pos rfl]; rfl
    · show (if (s.sp.info f.seq).destEn then Ring.upd s.prf (s.sp.info f.seq).preg
          ((prog (s.pay f.seq).1).value (Core.after prog s.isa (A.map (task s))).ext _ _) else s.prf) =
        (if (s.sp.info f.seq).destEn then Ring.upd s.prf (s.sp.info f.seq).preg
          ((prog (s.pay f.seq).1).value (isaAfter prog s (older k s f.seq)).ext (arg1 prog s f.seq) (arg2 prog s f.seq)) else s.prf)
      rw [after_flights, hold]; rfl

theorem inv_write (hk : Good k) (hi : Inv prog k s) {u : Nat} (hc : CanWrite prog k s u) : Inv prog k (write prog k s u) := by
  have hu : u ∈ ids k s := List.mem_append_left _ hc.mem
  have hne : ∀ v, v ≠ u → (write prog k s u).wrote v = s.wrote v := fun v hv => if_neg hv
  refine ⟨hi.reach, ?_, ?_, hi.br, hi.dser, hi.rser, hi.rep, hi.mis⟩
  · intro d hd
    have h := ids_lat hk hi.reach hu hd
    rw [hne d.uid (by omega)]; exact hi.lat d hd
  · intro v hv
    have h := ids_lt hk hi.reach hu
    have hv : s.sp.next ≤ v := hv
    rw [hne v (by omega)]; exact hi.new v hv

theorem inv_run (hk : Good k) (hi : Inv prog k s) {u : Nat} (hc : CanRun prog k s u) : Inv prog k (finish prog k s u) := by
  have hu : u ∈ ids k s := List.mem_append_left _ hc.mem
  have hne : ∀ v, v ≠ u → (finish prog k s u).done v = s.done v ∧ (finish prog k s u).act v = s.act v := by
    intro v hv
    exact ⟨if_neg hv, if_neg hv⟩
  refine ⟨hi.reach, ?_, ?_, hi.br, hi.dser, hi.rser, ?_, hi.mis⟩
  · intro d hd
    have h := ids_lat hk hi.reach hu hd
    obtain ⟨h1, h2⟩ := hne d.uid (by omega)
    rw [h1, h2]; exact hi.lat d hd
  · intro v hv
    have h := ids_lt hk hi.reach hu
    have hv : s.sp.next ≤ v := hv
    obtain ⟨h1, h2⟩ := hne v (by omega)
    rw [h1, h2]; exact hi.new v hv
  · intro v hvm ht hb
    obtain ⟨hd, h⟩ := hi.rep v hvm ht hb
    have hvu : v.id ≠ u := by
      intro e
      rw [e, hc.fresh] at hd; cases hd
    obtain ⟨h1, h2⟩ := hne v.id hvu
    rw [h1, h2]; exact ⟨hd, h⟩

theorem inv_init (hk : Good k) (prf : Nat → W) (pc : W) (m : M) : Inv prog k (init n k prf pc m) := by
  have hl := link_init (n := n) hk
  have hlat : ∀ d, some d ∉ (Spine.init n k).lat := by
    intro d hd; have := (List.mem_replicate.1 hd).2; cases this
  have hw : waiting (Spine.init n k).dis = [] := by
    show (List.replicate k.dis.banks none).filterMap id = []
    rw [List.filterMap_eq_nil_iff]; intro o ho; rw [(List.mem_replicate.1 ho).2]; rfl
  have hi : insts k.L (Spine.init n k).rob = [] := by
    have := hl.sigs
    simpa using this
  refine ⟨.init, fun d hd => absurd hd (hlat d), fun _ _ => ⟨rfl, rfl, rfl⟩, ?_, ?_, ?_, ?_, ?_⟩
  · intro u hu
    have hu : u ∈ (insts k.L (Spine.init n k).rob).map (·.id) ++ (waiting (Spine.init n k).dis).map (·.ftq) := hu
    rw [hi, hw] at hu; cases hu
  · intro v hv
    have hv : v ∈ waiting (Spine.init n k).dis := hv
    rw [hw] at hv; cases hv
  all_goals first
    | (intro v hv
       have hv : v ∈ insts k.L (Spine.init n k).rob := hv
       rw [hi] at hv; cases hv)
    | (intro hm; cases hm)

theorem core_init (k : Cfg) (prf : Nat → W) (pc : W) (m : M) (l : List Nat) :
    coreOf (init n k prf pc m) ⟨Ren.init k.P k.A, List.replicate k.dis.banks none, [], []⟩ l =
      Core.State.init k.P k.A k.dis.banks prf pc m := by
  refine core_ext rfl ?_ rfl rfl rfl rfl rfl
  show (List.replicate k.dis.banks none).map _ = List.replicate k.dis.banks none
  rw [List.map_replicate]; rfl

/-- Every run of the composed stages is a run of `Core`. -/
theorem simulate (hk : Good k) {prf : Nat → W} {pc : W} {m : M} {s : State n M} (h : Reach prog k (init n k prf pc m) s) :
    Inv prog k s ∧ ∃ bw rw Z g, Link k s.sp bw rw Z g ∧
      Core.Reach prog k.P k.A n (Core.State.init k.P k.A k.dis.banks prf pc m) (coreOf s rw (ids k s)) := by
  induction h with
  | init => exact ⟨inv_init hk prf pc m, _, _, _, _, link_init hk, by rw [core_init]; exact .init⟩
  | cycle c _ hv ih =>
    obtain ⟨hi, bw, rw, Z, g, hl, hr⟩ := ih
    obtain ⟨Z', hl'⟩ := link_step hk hl hv.hw
    refine ⟨inv_cycle hk hi hl hv, _, _, _, _, hl', ?_⟩
    rw [← cycle_eq hk hi hl hv]
    exact .cycle _ hr (core_valid hk hi hl hv)
  | run _ hc ih =>
    obtain ⟨hi, bw, rw, Z, g, hl, hr⟩ := ih
    obtain ⟨pre, t, post, h1, h2, h3⟩ := canRun hk hi.reach hl hc
    refine ⟨inv_run hk hi hc, bw, rw, Z, g, hl, ?_⟩
    rw [← h3]
    exact .run hr h1 h2
  | write _ hc ih =>
    obtain ⟨hi, bw, rw, Z, g, hl, hr⟩ := ih
    obtain ⟨pre, t, post, h1, h2, h3⟩ := canWrite hk hi.reach hl hc
    refine ⟨inv_write hk hi hc, bw, rw, Z, g, hl, ?_⟩
    rw [← h3]
    exact .write hr h1 h2

end Verif.WholeProofs
