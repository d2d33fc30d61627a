import Verif.Wire.Props
import Verif.Traverse.FairExample

/-! # Two ranks that send each other bytes -/

namespace Verif.Wire

open Verif.Traverse

/-- The two cells of `Verif.Traverse.FairExample` with the two-sided protocol; the data of a rank is
the list of what it received, the data sent is the angle and the number of bytes received so far. -/
def wireCfg : Cfg (List UInt8) (UInt8 × UInt8) where
  nRanks := 2
  nAngles := 2
  nThreads := 1
  maxCompute := 1
  direction := .forward
  doComm := true
  protocol := .tycho
  rendezvous := true
  mesh := capCfg.mesh
  data _ := ⟨fun _ _ a d => (UInt8.ofNat a, UInt8.ofNat d.length), fun _ _ b d => d ++ [b.1, b.2],
    fun _ _ _ => 0, fun _ _ _ _ d => d⟩
  init _ := []

/-- Two bytes. -/
def pairCodec : Codec (UInt8 × UInt8) where
  size := 2
  enc b := [b.1, b.2]
  dec l := (l.headD 0, l.tail.headD 0)

theorem pair_ok : pairCodec.Ok := ⟨fun _ => rfl, fun _ => rfl⟩

theorem wire_linked : Linked wireCfg exMate :=
  have L := buf_linked
  ⟨L.threads, L.size, L.mate_in, L.mate_symm, L.near, L.far, L.ext, L.side_eq, L.side_cell, L.side_inj,
    L.orient⟩

theorem wire_fits : Fits wireCfg pairCodec where
  sides x hx := by
    have : wireCfg.gs x = x.face := rfl
    rw [this]
    exact lt_of_lt_of_le x.face.isLt (by decide)
  angles := by decide
  bytes r hr q := lt_of_le_of_lt (Nat.mul_le_mul_left _ (min_le_right _ _)) (by decide)

theorem wire_crossed : Crossed wireCfg exMate := buf_crossed
theorem wire_acyclic : Acyclic wireCfg exMate := buf_acyclic

/-- The hypotheses of C90 hold: an execution returns on both ranks, with both tasks of each done. -/
example : ∃ n w, Run wireCfg pairCodec n w ∧ (∀ r < 2, (w.rank r).phase = .finished) ∧
    n ≤ callBound wireCfg ∧ ¬ Fails wireCfg pairCodec w ∧
    w.log.countP (fun e => e.task = some (1, 0, 0)) = 1 := by
  obtain ⟨n, w, h, hf⟩ := wire_finishes wire_linked pair_ok wire_fits rfl rfl (by decide) wire_crossed
    wire_acyclic
  exact ⟨n, w, h, hf, wire_terminates wire_linked pair_ok wire_fits rfl rfl (by decide) wire_crossed
    wire_acyclic h, wire_no_error wire_linked pair_ok wire_fits rfl rfl h,
    (wire_once_in_order wire_linked pair_ok wire_fits rfl rfl h).2.2 1 (by decide) (hf 1 (by decide)) 0
      (by decide) 0 (by decide)⟩

/-- Rank 0 has announced and sent a packet of 18 bytes, and rank 1 is in the receive for it. -/
example : ∃ n w, Run wireCfg pairCodec n w ∧ w.waiting 1 = some (0, 18) ∧
    w.datas 0 1 = [[0, 0, 0, 0, 0, 0, 0, 0, 0, 0, 0, 0, 0, 0, 0, 0, 0, 0]] := by
  have hd : ∀ (queue : Nat → List Tuple), ∀ g < wireCfg.nThreads,
      queue g = [] ∨ ¬ (setAt (fun _ => 0) 0 1 : Nat → Nat) g < wireCfg.maxCompute := by
    intro queue g hg
    right
    have hg : g < 1 := hg
    have : g = 0 := by omega
    subst this
    decide
  have s1 := Run.step (C := pairCodec) .init (Step.compute (cfg := wireCfg) (initState wireCfg) 0 0 (fun _ => 0) [] []
    ⟨0, 0, 0⟩ (by decide) (by decide) rfl rfl (by decide) (by decide))
  have s2 := Run.step s1 (Step.call 0 (by decide) (.begin (setAt (fun _ => 0) 0 1) rfl (hd _)))
  have s3 := Run.step s2 (Step.call 0 (by decide) (.isendSize 1 18 _ rfl))
  have s4 := Run.step s3 (Step.call 0 (by decide) (.isendData 1 _ [] rfl (by decide)))
  have s5 := Run.step s4 (Step.compute (cfg := wireCfg) _ 1 0 (fun _ => 0) [] []
    ⟨0, 1, 0⟩ (by decide) (by decide) rfl rfl (by decide) (by decide))
  have s6 := Run.step s5 (Step.call 1 (by decide) (.begin (setAt (fun _ => 0) 0 1) rfl (hd _)))
  have s7 := Run.step s6 (Step.call 1 (by decide) (.isendSize 0 18 _ rfl))
  have s8 := Run.step s7 (Step.call 1 (by decide) (.isendData 0 _ [] rfl (by decide)))
  have s9 := Run.step s8 (Step.call 1 (by decide) (.waitData 0 18 [] false [] [] rfl rfl rfl rfl (by decide)))
  exact ⟨_, _, s9, rfl, rfl⟩

/-- Blocks padded with zeros. -/
def padCodec (n : Nat) : Codec (UInt8 × UInt8) where
  size := n + 2
  enc b := b.1 :: b.2 :: List.replicate n 0
  dec l := (l.headD 0, l.tail.headD 0)

theorem pad_ok (n : Nat) : (padCodec n).Ok := ⟨fun _ => by simp [padCodec], fun _ => rfl⟩

/-- C90: the limit on the length is real: with data blocks of 2 GiB the program stops at the
assertion. -/
theorem long_message_stops {C : Codec (UInt8 × UInt8)} (hC : C.Ok) (h1 : 2 ^ 31 ≤ C.size)
    (h2 : C.size < 2 ^ 63) : ∃ n w, Run wireCfg C n w ∧ Fails wireCfg C w := by
  have hd : ∀ (queue : Nat → List Tuple), ∀ g < wireCfg.nThreads,
      queue g = [] ∨ ¬ (setAt (fun _ => 0) 0 1 : Nat → Nat) g < wireCfg.maxCompute := by
    intro queue g hg
    right
    have hg : g < 1 := hg
    have : g = 0 := by omega
    subst this
    decide
  have s1 := Run.step (C := C) .init (Step.compute (cfg := wireCfg) (initState wireCfg) 0 0 (fun _ => 0) [] []
    ⟨0, 0, 0⟩ (by decide) (by decide) rfl rfl (by decide) (by decide))
  have s2 := Run.step s1 (Step.call 0 (by decide) (.begin (setAt (fun _ => 0) 0 1) rfl (hd _)))
  generalize hw : enter wireCfg C _ 0 false _ = w at s2
  have hops : w.ops 0 = sendOps false [1] fun _ => bytesOf C [⟨0, 0, (0, 0)⟩] := by
    rw [← hw]; rfl
  have hlen : (bytesOf C [⟨0, 0, (0, 0)⟩]).length = 16 + C.size := by
    rw [bytesOf_length hC]; simp [Verif.Packet.packetSize]
  have hops : w.ops 0 = .size 1 (16 + C.size) :: [.data 1 (bytesOf C [⟨0, 0, (0, 0)⟩])] := by
    rw [hops]
    simp only [sendOps, List.flatMap_cons, List.flatMap_nil, List.append_nil, sendTo, hlen]
    rw [if_neg (by decide), if_pos ⟨by omega, by unfold uintMax; omega⟩]
  have s3 := Run.step s2 (Step.call 0 (by decide) (.isendSize 1 _ _ hops))
  exact ⟨_, _, s3, .tooLong 0 1 _ [] (by decide) rfl (by rw [hlen]; unfold intMax; omega)⟩

example : (padCodec (2 ^ 31)).Ok ∧ 2 ^ 31 ≤ (padCodec (2 ^ 31)).size ∧ (padCodec (2 ^ 31)).size < 2 ^ 63 :=
  ⟨pad_ok _, Nat.le_add_right _ 2, by change 2 ^ 31 + 2 < 2 ^ 63; norm_num⟩

end Verif.Wire
