import Verif.Wire.Steps

/-!
# C90: the exchange of sizes and bytes delivers the packets

Everything proved in `Verif.Traverse` about whole messages holds for the program that sends a size and
then bytes, waits for the sizes in any order and receives what was announced.
-/

set_option linter.unusedSectionVars false

namespace Verif.Wire

open Verif.Traverse

variable {D B : Type} {cfg : Cfg D B} {mate : Loc → Option Loc} (L : Linked cfg mate) {C : Codec B}
  (hC : C.Ok) (F : Fits cfg C) (hd : cfg.doComm = true) (ht : cfg.protocol = .tycho)
include L hC F hd ht

theorem Run.sim {n : Nat} {w : State D B} (h : Run cfg C n w) :
    ∃ c s, Traverse.Run cfg c (Traverse.initState cfg) s ∧ Sim C w s ∧
      n + pot cfg w ≤ c * (2 * cfg.nRanks + 2) + cfg.nRanks := by
  induction h with
  | init =>
    refine ⟨0, _, .nil _, Sim.init cfg C, ?_⟩
    simp [pot, initState]
  | step _ hs ih =>
    obtain ⟨c, s, hr, S, hn⟩ := ih
    rcases S.step L hC F hd ht (hr.reachable .init) hs with ⟨S', hp⟩ | ⟨s', hst, S', hp⟩
    · exact ⟨c, s, hr, S', by omega⟩
    · refine ⟨c + 1, s', hr.snoc hst, S', ?_⟩
      rw [Nat.succ_mul]
      omega

/-- C90: whatever the calls do, some execution with whole messages makes the same calls into
`TraverseData` in the same order and leaves the same data, and the same ranks have returned. So all
that holds for executions with whole messages holds for the calls. -/
theorem wire_refines {n : Nat} {w : State D B} (h : Run cfg C n w) :
    ∃ s, Reachable cfg s ∧ w.log = s.log ∧ ∀ r, (w.rank r).data = (s.rank r).data ∧
      ((w.rank r).phase = .finished ↔ (s.rank r).phase = .finished) := by
  obtain ⟨c, s, hr, S, -⟩ := h.sim L hC F hd ht
  refine ⟨s, hr.reachable .init, S.log, fun r => ⟨by rw [S.rank r], ?_⟩⟩
  rw [S.phase, strip_finished]

/-- C90: every task is computed at most once and in order, and on a rank that has returned exactly
once. -/
theorem wire_once_in_order {n : Nat} {w : State D B} (h : Run cfg C n w) :
    (∀ r c a, w.log.countP (fun e => e.task = some (r, c, a)) ≤ 1) ∧ Ordered cfg mate w.log ∧
    ∀ r < cfg.nRanks, (w.rank r).phase = .finished → ∀ c < (cfg.mesh r).nCells, ∀ a < cfg.nAngles,
      w.log.countP (fun e => e.task = some (r, c, a)) = 1 := by
  obtain ⟨s, hr, hl, hs⟩ := wire_refines L hC F hd ht h
  rw [hl]
  exact ⟨(traverse_once_in_order L hr).1, (traverse_once_in_order L hr).2, fun r hlt hf c hc a ha =>
    traverse_finished_once L hr hlt ((hs r).2.1 hf) hc ha⟩

/-- C90: no message is too long for MPI, every receive of data finds exactly as many bytes as were
announced, and the bytes received are whole packets. -/
theorem wire_no_error {n : Nat} {w : State D B} (h : Run cfg C n w) : ¬ Fails cfg C w := by
  obtain ⟨c, s, hrun, S, -⟩ := h.sim L hC F hd ht
  intro hf
  cases hf with
  | tooLong r q b rest hr hops hlen =>
    have hdt := S.datas r q
    have hb : b ∈ (s.chan r q).flatMap (msgData C) := by
      rw [← hdt, hops]
      refine List.mem_append_right _ ?_
      simp [opDatas, Op.datas]
    obtain ⟨m, hm, hbm⟩ := List.mem_flatMap.1 hb
    cases m with
    | kill => simp [msgData] at hbm
    | packets ps =>
      simp only [msgData] at hbm
      split at hbm
      · rw [List.mem_singleton] at hbm
        rw [hbm] at hlen
        exact hlen (S.small r q ps hm)
      · simp at hbm
  | mismatch r q m b bs hr hw hs hlen =>
    obtain ⟨ps, ms, hc, hn, hpos⟩ := S.head hw
    have hdt := S.datas q r
    rw [hs, hc] at hdt
    simp only [List.cons_append, List.flatMap_cons, msgData, hpos, if_true, List.nil_append,
      List.cons.injEq] at hdt
    rw [hdt.1] at hlen
    exact hlen hn
  | ragged r hr hphase hops hw hrag =>
    rw [S.phase, strip_exchanging] at hphase
    obtain ⟨-, got, hp⟩ := hphase
    rw [S.inbuf r _ _ _ hp, bytesOf_length hC] at hrag
    exact hrag (Nat.mul_mod_right _ _)

/-- C90: as long as a rank has not returned some rank can make its next call, even if sends complete
only when they are received: neither the blocking receive nor the waits can hang. -/
theorem wire_no_deadlock {n : Nat} {w : State D B} (h : Run cfg C n w)
    (hnf : ∃ r < cfg.nRanks, (w.rank r).phase ≠ .finished) : ∃ w', Step cfg C w w' := by
  obtain ⟨c, s, hrun, S, -⟩ := h.sim L hC F hd ht
  have hreach := hrun.reachable .init
  have P := hreach.proto L hd ht
  by_cases ho : ∃ r < cfg.nRanks, w.ops r ≠ []
  · obtain ⟨r, hr, hne⟩ := ho
    obtain ⟨op, rest, hops⟩ := List.exists_cons_of_ne_nil hne
    cases op with
    | size q m => exact ⟨_, Step.call r hr (.isendSize q m rest hops)⟩
    | data q b =>
      refine ⟨_, Step.call r hr (.isendData q b rest hops ?_)⟩
      by_contra hlen
      exact wire_no_error L hC F hd ht h (.tooLong r q b rest hr hops hlen)
  push Not at ho
  by_cases hwt : ∃ r < cfg.nRanks, w.waiting r ≠ none
  · obtain ⟨r, hr, hne⟩ := hwt
    obtain ⟨⟨q, m⟩, hw⟩ := Option.ne_none_iff_exists'.1 hne
    obtain ⟨ps, ms, hc, hn, hpos⟩ := S.head hw
    obtain ⟨-, k, pend, got, hp, hq⟩ := S.waiting r q m hw
    obtain ⟨p1, p2, rfl⟩ := List.append_of_mem hq
    have hqlt := (P.chans q r (by rw [hc]; simp)).1
    have hdt := S.datas q r
    rw [hc, ho q hqlt] at hdt
    simp only [opDatas, List.flatMap_nil, List.append_nil, List.flatMap_cons, msgData, hpos, if_true,
      List.cons_append, List.nil_append] at hdt
    exact ⟨_, Step.call r hr (.recvData q m _ _ k p1 p2 (by rw [S.phase, hp]; rfl) hw hdt hn)⟩
  push Not at hwt
  have hnf' : ∃ r < cfg.nRanks, (s.rank r).phase ≠ .finished := by
    obtain ⟨r, hr, hf⟩ := hnf
    refine ⟨r, hr, fun h => hf ?_⟩
    rw [S.phase, h]; rfl
  obtain ⟨s', hs⟩ := traverse_no_deadlock L (fun _ => ht) hreach hnf'
  cases hs with
  | compute r g steps l1 l2 t hr hg hphase hq htop hsteps =>
    have hsame := S.same (r := r) (by rw [hphase]; rfl)
    rw [← hsame] at hphase hq htop
    exact ⟨_, Step.compute w r g steps l1 l2 t hr hg hphase hq htop hsteps⟩
  | skip r steps hr hphase hdone hcomm => rw [hd] at hcomm; simp at hcomm
  | send r steps hr hphase hdone hcomm =>
    have hsame := S.same (r := r) (by rw [hphase]; rfl)
    rw [← hsame] at hphase hdone
    exact ⟨_, Step.call r hr (.begin steps hphase hdone)⟩
  | kill r hr hphase => exact ⟨_, Step.call r hr (.beginKill (by rw [S.phase, hphase]; rfl))⟩
  | recv r q kill p1 p2 got m ms hr hphase hchan hcap =>
    have hqlt := (P.chans q r (by rw [hchan]; simp)).1
    have hsz := S.sizes q r
    have hm : mid w.waiting q r = [] := by simp [mid, hwt r hr]
    rw [hm, ho q hqlt, hchan] at hsz
    simp only [opSizes, List.flatMap_nil, List.append_nil, List.nil_append, List.map_cons] at hsz
    have hph : (w.rank r).phase = .exchanging kill (p1 ++ q :: p2) [] := by rw [S.phase, hphase]; rfl
    by_cases hn : msgSize C m > 0 ∧ msgSize C m ≠ uintMax
    · exact ⟨_, Step.call r hr (.waitData q _ _ kill p1 p2 hph (ho r hr) (hwt r hr) hsz hn)⟩
    · exact ⟨_, Step.call r hr (.waitNone q _ _ kill p1 p2 hph (ho r hr) (hwt r hr) hsz hn)⟩
  | miss r q kill ps got hr hphase hcap hsends => rw [ht] at hcap; simp at hcap
  | unpack r got hr hphase hsends =>
    have hph : (w.rank r).phase = .exchanging false [] [] := by rw [S.phase, hphase]; rfl
    refine ⟨_, Step.call r hr (.unpack hph (ho r hr) (hwt r hr) (S.sendsDone_iff hsends) ?_)⟩
    by_contra hrag
    exact wire_no_error L hC F hd ht h (.ragged r hr hph (ho r hr) (hwt r hr) hrag)
  | close r got hr hphase hsends =>
    exact ⟨_, Step.call r hr (.close (by rw [S.phase, hphase]; rfl) (ho r hr) (hwt r hr)
      (S.sendsDone_iff hsends))⟩

/-- Bound on the number of calls. -/
def callBound (cfg : Cfg D B) : Nat :=
  stepBound cfg cfg.allCells * (2 * cfg.nRanks + 2) + cfg.nRanks

/-- C90: no execution makes more calls than a number that depends only on the sizes of the problem. -/
theorem wire_terminates (hbatch : 0 < cfg.maxCompute) (hx : Crossed cfg mate) (hac : Acyclic cfg mate)
    {n : Nat} {w : State D B} (h : Run cfg C n w) : n ≤ callBound cfg := by
  obtain ⟨c, s, hrun, -, hn⟩ := h.sim L hC F hd ht
  have hb := traverse_terminates L hbatch (fun _ => ht) hx hac hrun
  have := Nat.mul_le_mul_right (2 * cfg.nRanks + 2) hb
  unfold callBound
  omega

/-- C90: there are executions that return on every rank; by `wire_no_deadlock` and `wire_terminates`
every execution that goes on as long as it can is one. -/
theorem wire_finishes (hbatch : 0 < cfg.maxCompute) (hx : Crossed cfg mate) (hac : Acyclic cfg mate) :
    ∃ n w, Run cfg C n w ∧ ∀ r < cfg.nRanks, (w.rank r).phase = .finished := by
  have key : ∀ m n (w : State D B), Run cfg C n w → callBound cfg ≤ n + m →
      ∃ n' w', Run cfg C n' w' ∧ ∀ r < cfg.nRanks, (w'.rank r).phase = .finished := by
    intro m
    induction m with
    | zero =>
      intro n w h hm
      refine ⟨n, w, h, ?_⟩
      by_contra hno
      push Not at hno
      obtain ⟨w', hs⟩ := wire_no_deadlock L hC F hd ht h hno
      have := wire_terminates L hC F hd ht hbatch hx hac (h.step hs)
      omega
    | succ m ih =>
      intro n w h hm
      by_cases hno : ∃ r < cfg.nRanks, (w.rank r).phase ≠ .finished
      · obtain ⟨w', hs⟩ := wire_no_deadlock L hC F hd ht h hno
        exact ih (n + 1) w' (h.step hs) (by omega)
      · push Not at hno
        exact ⟨n, w, h, hno⟩
  exact key (callBound cfg) 0 _ .init (by omega)

/-- C90: when all ranks have returned no size and no byte is left in a channel and no call is
outstanding. -/
theorem wire_quiet {n : Nat} {w : State D B} (h : Run cfg C n w)
    (hf : ∀ r < cfg.nRanks, (w.rank r).phase = .finished) :
    (∀ q r, w.sizes q r = [] ∧ w.datas q r = []) ∧
    ∀ r < cfg.nRanks, w.ops r = [] ∧ w.waiting r = none := by
  obtain ⟨c, s, hrun, S, -⟩ := h.sim L hC F hd ht
  have hf' : ∀ r < cfg.nRanks, (s.rank r).phase = .finished := by
    intro r hr
    have := hf r hr
    rwa [S.phase, strip_finished] at this
  constructor
  · intro q r
    have hc := (all_matched L hd ht (hrun.reachable .init) hf' q r).1
    have hs := S.sizes q r
    have hdt := S.datas q r
    rw [hc] at hs hdt
    simp only [List.map_nil, List.append_eq_nil_iff, List.flatMap_nil] at hs hdt
    exact ⟨hs.2.1, hdt.1⟩
  · intro r hr
    exact S.quiet (by rw [hf' r hr]; simp)

end Verif.Wire
