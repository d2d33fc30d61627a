import Verif.Schedule.SweepSpec
import Mathlib.Data.List.Forall2

/-!
# The sweep along schedules: data and packets
-/
set_option linter.unusedSectionVars false
set_option linter.unusedVariables false

namespace Verif.Schedule
open Classical List
open Verif.Traverse

variable {D B : Type} {S : Core D B}

theorem setAt_self {α : Type} (f : Nat → α) (i : Nat) (v : α) : setAt f i v i = v := by simp [setAt]

theorem setAt_ne {α : Type} (f : Nat → α) {i j : Nat} (v : α) (h : j ≠ i) : setAt f i v j = f j := by
  simp [setAt, h]

/-! ### Data -/

theorem recv_sim {sim : Nat → D → D → Prop} (A : S.Agrees sim) {r : Nat} (hr : r < S.cfg.nRanks)
    {m : List (Packet B)} {d : D} {log : List (Event B)} (h : sim r d (replay S.cfg r log)) :
    sim r (S.setBoundData r m d) (replay S.cfg r (log ++ S.arrivals r m)) := by
  unfold Core.setBoundData Core.arrivals
  induction m using List.reverseRecOn with
  | nil => simpa using h
  | append_singleton m p ih =>
    rw [List.foldl_append, List.map_append, ← List.append_assoc, List.map_singleton, replay_snoc]
    simp only [List.foldl_cons, List.foldl_nil, applyEvent, if_true]
    exact A.set r hr _ _ _ _ _ ih

theorem replay_arrivals {r r' : Nat} {m : List (Packet B)} {log : List (Event B)} (h : r' ≠ r) :
    replay S.cfg r' (log ++ S.arrivals r m) = replay S.cfg r' log := by
  unfold Core.arrivals
  induction m using List.reverseRecOn with
  | nil => simp
  | append_singleton m p ih =>
    rw [List.map_append, ← List.append_assoc, List.map_singleton, replay_snoc, ih]
    simp only [applyEvent]
    rw [if_neg (Ne.symm h)]

/-! ### Packets -/

theorem cross_append (p q : Nat) (l1 l2 : List Work) :
    S.cross p q (l1 ++ l2) = S.cross p q l1 ++ S.cross p q l2 := by
  simp [Core.cross]

theorem mem_cross {p q : Nat} {l : List Work} {e : Work × Face} : e ∈ S.cross p q l ↔
    e.1 ∈ l ∧ S.leaves p e.1.angle e.1.cell e.2 ∧ (S.cfg.mesh p).adjRank e.1.cell e.2 = some q := by
  obtain ⟨w, f⟩ := e
  simp only [Core.cross, List.mem_flatMap, List.mem_filterMap, List.mem_finRange, true_and]
  constructor
  · rintro ⟨w', hw', f', h⟩
    split at h <;> [skip; simp at h]
    rename_i hc
    simp only [Option.some.injEq, Prod.mk.injEq] at h
    obtain ⟨rfl, rfl⟩ := h
    exact ⟨hw', hc⟩
  · rintro ⟨hw, h⟩
    exact ⟨w, hw, f, by rw [if_pos h]⟩

theorem nodup_cross {p q : Nat} {l : List Work} (h : l.Nodup) : (S.cross p q l).Nodup := by
  unfold Core.cross
  rw [List.nodup_flatMap]
  constructor
  · intro w _
    refine List.Nodup.filterMap ?_ (List.nodup_finRange 4)
    intro f f' b hb hb'
    simp only [Option.mem_def] at hb hb'
    split at hb <;> [skip; simp at hb]
    split at hb' <;> [skip; simp at hb']
    simp only [Option.some.injEq] at hb hb'
    rw [← hb'] at hb
    exact (Prod.mk.inj hb).2
  · refine h.imp ?_
    intro w w' hne
    simp only [Function.onFun, List.disjoint_left, List.mem_filterMap]
    rintro e ⟨f, -, hf⟩ ⟨f', -, hf'⟩
    split at hf <;> [skip; simp at hf]
    split at hf' <;> [skip; simp at hf']
    simp only [Option.some.injEq] at hf hf'
    rw [← hf'] at hf
    exact hne (Prod.mk.inj hf).1

theorem pktOk_append {log l : List (Event B)} {p : Nat} {e : Work × Face} {pkt : Packet B}
    (h : S.PktOk log p e pkt) : S.PktOk (log ++ l) p e pkt := ⟨h.1, h.2.1, sentBy_append h.2.2⟩

theorem pkts_append {log l : List (Event B)} {p : Nat} {es : List (Work × Face)}
    {m : List (Packet B)} (h : List.Forall₂ (S.PktOk log p) es m) :
    List.Forall₂ (S.PktOk (log ++ l) p) es m := h.imp fun _ _ h => pktOk_append h

/-- The packets of a task carry what was just computed. -/
theorem packets_ok {sim : Nat → D → D → Prop} (A : S.Agrees sim) {r k q : Nat} {w : Work} (hr : r < S.cfg.nRanks)
    (hc : w.cell < (S.cfg.mesh r).nCells) (ha : w.angle < S.cfg.nAngles) {d : D}
    {log : List (Event B)} (h : sim r d (replay S.cfg r log)) :
    List.Forall₂ (S.PktOk (log ++ [.upd r w.cell w.angle k]) r) (S.cross r q [w])
      (S.packets r w (S.compute r w d) q) := by
  have hs := (A.compute r hr w hc ha _ _ h).2
  unfold Core.cross Core.packets
  simp only [List.flatMap_cons, List.flatMap_nil, List.append_nil]
  generalize List.finRange 4 = L
  induction L with
  | nil => exact .nil
  | cons f L ih =>
    rw [List.filterMap_cons, List.filterMap_cons]
    by_cases hl : S.leaves r w.angle w.cell f ∧ (S.cfg.mesh r).adjRank w.cell f = some q
    · simp only [if_pos hl]
      refine .cons ⟨rfl, rfl, log, k, [], rfl, ?_⟩ ih
      rw [replay_snoc]
      simp only [applyEvent, if_true]
      exact hs f hl.1
    · simp only [if_neg hl]
      exact ih

end Verif.Schedule
