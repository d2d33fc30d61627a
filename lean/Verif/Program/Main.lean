import Verif.Program.Props

/-!
# The sweep of the program (C70)
-/
set_option linter.unusedSectionVars false
set_option linter.unusedVariables false
namespace Verif.Program

open Verif.MeshFile Verif.TychoMesh Verif.Geometry Verif.Geometry.Spec Verif.Program.Spec
open Verif.Traverse (Protocol Reachable State SweepRun Psi Bound)
open Verif.Transport (GaussElim)

variable {val : Nat → ℝ} {m : SerialMesh} {pv : List Nat} {n : Nat} {P : ParallelMesh} {T : Nat → Mesh}
variable {deck : Deck} {p : Problem ℝ} {sS : Nat → ℝ}

/-- The material of a cell. -/
def materialOf (m : SerialMesh) (c : Nat) : Nat := ((m.cells[c]?).map SCell.material).getD 1

open Classical in
/-- Mesh and settings describe a problem. -/
theorem describes_exists (H : Tets m) (F : Fits val m) (hs : Sensible val deck m) : ∃ p sS, Describes val deck m p sS := by
  let sT : Nat → ℝ := fun c => if materialOf m c = 1 then deck.sigmaT1 else deck.sigmaT2
  let sS : Nat → ℝ := fun c => if materialOf m c = 1 then deck.sigmaS1 else deck.sigmaS2
  refine ⟨{ nAngles := deck.dirs.length
            nGroups := deck.nGroups
            volume := fun c => tetVolume (pts val m c)
            area := fun c f => triangleArea (facePoints (pts val m c) f.succAbove)
            omegaDotN := fun a c f => ((deck.omega[a]?).map fun om => dotN val m om c f).getD 0
            sigmaT := sT
            source := fun g v a c => ((deck.dirs[a]?).map fun d =>
              if radius (pts val m c v) ≤ 30 then
                - ((pts val m c v 0 - 50) * d.xi + (pts val m c v 1 - 50) * d.eta + (pts val m c v 2 - 50) * d.mu)
                    / (30 * radius (pts val m c v)) + (sT c - sS c) * (1 - radius (pts val m c v) / 30)
              else 0).getD 0 }, sS, rfl, rfl, ?_, ?_, ?_, ?_, ?_⟩
  · intro c hc; exact det_eq _
  · intro c hc f n hn j hj
    obtain ⟨n', h1, h2⟩ := normal_outward (pts val m c) f _ (std_table f) (F.nondeg c hc)
    obtain rfl := outward_unique _ f (F.nondeg c hc) n n' hn h2
    rw [Fin.sum_univ_three]
    exact volume_height _ f _ (std_table f) (F.nondeg c hc) n h1 j hj
  · intro c hc f n hn a d hd
    have e := dot_eq (std_table f) (F.nondeg c hc) ![d.xi, d.eta, d.mu] n hn
    rw [dotN_eq (F.nondeg c hc) (std_table f), Option.some.injEq] at e
    show ((deck.omega[a]?).map fun om => dotN val m om c f).getD 0 = _
    rw [omega_get, hd]
    exact e
  · intro c d hd
    have hm : materialOf m c = d.material := by unfold materialOf; rw [hd]; rfl
    show Sigma deck d.material (sT c) (sS c)
    dsimp only [sT, sS]
    rw [hm]
    rcases hs.material d (mem_of_get hd) with h | h
    · exact .inl ⟨h, by simp [h], by simp [h]⟩
    · exact .inr ⟨h, by simp [h], by simp [h]⟩
  · intro c hc a d hd g hg v
    dsimp only
    rw [hd]
    constructor
    · intro h; simp [h]
    · intro h; simp [not_le.2 h]

/-- C70: every rank that has read its part sets up its tables, and they hold the geometry, the cross
sections and the source of the cells as the serial mesh describes them. -/
theorem start_returns (H : Created m pv n P) (L : Loaded val P T) (F : Fits val m) (hs : Sensible val deck m)
    (Ds : Describes val deck m p sS) {r : Nat} {part : Part} (hp : P.parts[r]? = some part) (hr : r < n)
    (src0 : Verif.Problem.Idx → Option ℝ) :
    ∃ D, start val deck part (T r) src0 = some D ∧ ∀ i c, IsCell P r i c →
      D.tables.volume[i]? = some (p.volume c) ∧ D.tables.area[i]? = some (p.area c) ∧
      (∀ a < p.nAngles, ((D.tables.omegaDotN[a]?).bind fun l => l[i]?) = some (p.omegaDotN a c)) ∧
      D.sigmaT[i]? = some (p.sigmaT c) ∧ D.sigmaS[i]? = some (sS c) ∧
      ∀ g < p.nGroups, ∀ v : Fin 4, ∀ a < p.nAngles, D.source (g, v.val, a, i) = some (p.source g v a c) := by
  obtain ⟨G, g1, g2⟩ := constructor_returns H L F deck.omega hp hr
  obtain ⟨B, -, -, -, -, hN, hG, hM, -⟩ := loc_facts (x := ⟨r, 0, 0⟩) H L hp
  dsimp only at hN hG hM
  have hlen : (T r).material.length = part.cells.length := by rw [hM, List.length_map]
  have hmat : ∀ i c, IsCell P r i c → ∃ d, m.cells[c]? = some d ∧ (T r).material[i]? = some d.material := by
    intro i c hi
    obtain ⟨cell, hc, rfl⟩ := cell_at H hi hp
    obtain ⟨d, hd, hm, -⟩ := (create_connectivity H.create hp).1 _ (mem_of_get hc)
    exact ⟨d, hd, by rw [hM, List.getElem?_map, hc, Option.map_some, hm]⟩
  obtain ⟨cs1, cs2⟩ := Verif.Problem.cross_sections deck.sigmaT1 deck.sigmaS1 deck.sigmaT2 deck.sigmaS2 (T r).material
  obtain ⟨lT, lS, hcs⟩ := cs1.2 (by
    intro q hq
    obtain ⟨i, hi⟩ := List.mem_iff_getElem?.1 hq
    have hi' : i < part.cells.length := by rw [← hlen]; exact (List.getElem?_eq_some_iff.1 hi).1
    obtain ⟨d, h1, h2⟩ := hmat i _ ⟨part, _, hp, List.getElem?_eq_getElem hi', rfl⟩
    rw [hi, Option.some.injEq] at h2
    rw [h2]
    exact hs.material d (mem_of_get h1))
  obtain ⟨l1, l2, l3⟩ := cs2 lT lS hcs
  have hsig : ∀ i c, IsCell P r i c → lT[i]? = some (p.sigmaT c) ∧ lS[i]? = some (sS c) := by
    intro i c hi
    obtain ⟨d, h1, h2⟩ := hmat i c hi
    rcases Ds.sigma c d h1 with ⟨e, e1, e2⟩ | ⟨e, e1, e2⟩ <;> rw [e1, e2]
    · exact (l3 i).1 (by rw [h2, e])
    · exact (l3 i).2 (by rw [h2, e])
  refine ⟨⟨G, lT, lS, Verif.Problem.hatSource (setup val deck part (T r) lT lS) src0⟩, ?_, ?_⟩
  · unfold start
    simp only [g1, hcs, Option.bind_eq_bind, Option.bind_some]
  · intro i c hi
    obtain ⟨q1, q2, q3, q4⟩ := isCell_lg H L hi
    obtain ⟨e1, e2, e3⟩ := describes_values F Ds q4
    obtain ⟨k1, k2, k3⟩ := g2 i c hi
    have hom : ∀ a < p.nAngles, ∃ om, deck.omega[a]? = some om := by
      intro a ha
      exact ⟨_, List.getElem?_eq_getElem (by unfold Deck.omega; rw [List.length_map, ← Ds.angles]; exact ha)⟩
    refine ⟨by rw [k1, e1], by rw [k2]; congr 1; funext f; rw [e2], ?_, (hsig i c hi).1, (hsig i c hi).2, ?_⟩
    · intro a ha
      obtain ⟨om, hom⟩ := hom a ha
      rw [k3 a om hom]
      congr 1; funext f; rw [e3 a om hom]
    · intro g hg v a ha
      obtain ⟨om, hom⟩ := hom a ha
      show Verif.Problem.hatSource _ _ _ = _
      rw [Verif.Problem.hatSource_entry _ _ (by show g < deck.nGroups; rw [← Ds.groups]; exact hg) v.2
        (by show a < deck.omega.length; unfold Deck.omega; rw [List.length_map, ← Ds.angles]; exact ha)
        (by show i < (T r).nCells; exact q3)]
      rw [← describes_source Ds hs q4 hom (by rw [← Ds.groups]; exact hg) v]
      have f1 : (setup val deck part (T r) lT lS).omega a = om := by show (deck.omega[a]?).getD 0 = om; rw [hom]; rfl
      have f2 : (setup val deck part (T r) lT lS).sigmaT i = p.sigmaT c := by
        show (lT[i]?).getD 0 = _; rw [(hsig i c hi).1]; rfl
      have f3 : (setup val deck part (T r) lT lS).sigmaS i = sS c := by
        show (lS[i]?).getD 0 = _; rw [(hsig i c hi).2]; rfl
      have f4 : ∀ k, Verif.Problem.rel (setup val deck part (T r) lT lS) i v k = pts val m c v k - Verif.Problem.cubeSize / 2 := by
        intro k
        obtain ⟨cell, hc, rfl⟩ := cell_at H hi hp
        unfold Verif.Problem.rel setup
        dsimp only
        rw [dif_pos v.2, cellNode_eq H L hp hc, Option.getD_some, node_eq H hp hc, Option.getD_some]
      rw [f1, f2, f3]
      congr 1
      funext k
      exact f4 k

/-- All ranks are set up with data `D`. -/
def Started (val : Nat → ℝ) (deck : Deck) (P : ParallelMesh) (T : Nat → Mesh) (D : Nat → RankData) : Prop :=
  ∀ (r : Nat) (part : Part), P.parts[r]? = some part → ∃ src0, start val deck part (T r) src0 = some (D r)

theorem started_exists (H : Created m pv n P) (L : Loaded val P T) (F : Fits val m) (hs : Sensible val deck m) :
    ∃ D, Started val deck P T D := by
  obtain ⟨p, sS, Ds⟩ := describes_exists H.tets F hs
  have : ∀ r, ∃ D, ∀ part, P.parts[r]? = some part → ∃ src0, start val deck part (T r) src0 = some D := by
    intro r
    by_cases hr : r < n
    · obtain ⟨part, hp⟩ := isCell_part H hr
      obtain ⟨D, hD, -⟩ := start_returns H L F hs Ds hp hr (fun _ => none)
      refine ⟨D, fun part' hp' => ?_⟩
      rw [hp, Option.some.injEq] at hp'
      subst hp'
      exact ⟨_, hD⟩
    · refine ⟨⟨⟨[], [], []⟩, [], [], fun _ => none⟩, fun part hp => ?_⟩
      have := (List.getElem?_eq_some_iff.1 hp).1
      have := (create_cells H.create).1
      omega
  choose D hD using this
  exact ⟨D, fun r part => hD r part⟩

/-- C70: the sweep of the program is a sweep of the described problem. -/
theorem program_runOf (H : Created m pv n P) (L : Loaded val P T) (F : Fits val m) (hs : Sensible val deck m)
    (Ds : Describes val deck m p sS) {D : Nat → RankData} (hD : Started val deck P T D) {threads batch : Nat}
    {proto : Protocol} {rv : Bool} {gauss : GaussElim} {prio : Nat → Nat → Nat → Nat} {psi0 : Nat → Psi ℝ}
    {bound0 : Nat → Bound ℝ} {scratch : Fin 4 → Nat → ℝ} (ht : 0 < threads)
    (hsz : ∀ r < n, deck.dirs.length * (T r).nCells < 2 ^ 64) :
    RunOf p n T (programRun deck n T D threads batch proto rv gauss prio psi0 bound0 scratch) := by
  have hang : deck.omega.length = p.nAngles := by unfold Deck.omega; rw [List.length_map, Ds.angles]
  have key : ∀ r < n, ∀ i c, (T r).getLGCell i = some c →
      (D r).tables.volume[i]? = some (p.volume c) ∧ (D r).tables.area[i]? = some (p.area c) ∧
      (∀ a < p.nAngles, (((D r).tables.omegaDotN[a]?).bind fun l => l[i]?) = some (p.omegaDotN a c)) ∧
      (D r).sigmaT[i]? = some (p.sigmaT c) ∧
      ∀ g < p.nGroups, ∀ v : Fin 4, ∀ a < p.nAngles, (D r).source (g, v.val, a, i) = some (p.source g v a c) := by
    intro r hr i c hc
    obtain ⟨part, hp⟩ := isCell_part H hr
    obtain ⟨src0, h0⟩ := hD r part hp
    obtain ⟨D', h1, h2⟩ := start_returns H L F hs Ds hp hr src0
    rw [h0, Option.some.injEq] at h1
    rw [h1]
    obtain ⟨a1, a2, a3, a4, -, a6⟩ := h2 i c (lg_isCell H L hr hc)
    exact ⟨a1, a2, a3, a4, a6⟩
  constructor
  case ranks => rfl
  case angles => exact hang
  case groups => exact Ds.groups.symm
  case comm => rfl
  case threads => exact ht
  case size => intro r hr; show deck.omega.length * _ < _; rw [hang, Ds.angles]; exact hsz r hr
  case cells => intro r _; rfl
  case volume => intro r hr i c hc; show Option.getD _ _ = _; rw [(key r hr i c hc).1]; rfl
  case area => intro r hr i c hc; show Option.getD _ _ = _; rw [(key r hr i c hc).2.1]; rfl
  case omega => intro r hr i c hc a ha; show Option.getD _ _ = _; rw [(key r hr i c hc).2.2.1 a ha]; rfl
  case sigma => intro r hr i c hc; show Option.getD _ _ = _; rw [(key r hr i c hc).2.2.2.1]; rfl
  case source => intro r hr i c hc g hg v a ha; show Option.getD _ _ = _; rw [(key r hr i c hc).2.2.2.2 g hg v a ha]; rfl
  all_goals
    intros
    simp_all [programRun]

end Verif.Program
