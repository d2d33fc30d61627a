import Verif.Program.Cube
import Verif.Schedule.SweepMesh

/-!
# All kinds of sweeps of the program (C77)

The sweep types `TychoTraverse...` walk the graph, `OriginalTycho1` and `OriginalTycho2` follow schedules made
with a tolerance of 1e-10. Away from the tolerance all give the same flux and the same output file. On the
mesh util/cube-12.smesh with the quadrature of order 2 every direction is within the tolerance.
-/
set_option linter.unusedSectionVars false
set_option linter.unusedVariables false
namespace Verif.Program

open Verif.MeshFile Verif.TychoMesh Verif.Geometry Verif.Program.Spec
open Verif.Traverse (Psi)
open Verif.Schedule (Sweeping SweepState AwayFrom Variant)
open Verif.PsiFile (Stored Written lgOf)
open Verif.Storage (PsiData)
open Verif.Quadrature (quadrature)

/-- The tolerance of the schedules (`TOL`, src/SweepSchedule.cc:57). -/
noncomputable def tolerance : ℝ := 1 / 10 ^ 10

/-- A sweep of some type of the program has returned on all ranks and `psi` is their flux. -/
inductive Completed (M : Mode) (deck : Deck) (T : Nat → Mesh) (D : Nat → RankData) (psi : Nat → Psi ℝ) : Prop where
  | traverse (h : Swept M deck T D psi)
  | schedule {S : Sweeping ℝ} {maxCells : Nat} {prio : Nat → Nat → Nat → Nat → Nat} {s : SweepState S.core}
      (run : S.run = M.run deck T D) (built : S.Built maxCells tolerance prio)
      (swept : Verif.Schedule.Swept s) (over : s.Over) (data : ∀ r < M.n, ∃ bnd, (s.rank r).data = some (psi r, bnd))

variable {val : Nat → ℝ} {deck : Deck} {m : SerialMesh} {M M' : Mode} {P P' : ParallelMesh} {T T' : Nat → Mesh}
  {D D' : Nat → RankData} {p : Problem ℝ} {sS : Nat → ℝ} {file g g' : List UInt8} {n n' : Nat}

theorem tolerance_nonneg : 0 ≤ tolerance := by unfold tolerance; positivity

theorem away_transversal (hw : AwayFrom p m tolerance) : p.Transversal m := by
  intro c f c' f' h a ha e
  have := hw c f c' f' h a ha
  rw [e, abs_zero] at this
  exact absurd this (not_lt.2 tolerance_nonneg)

/-- C77: away from the tolerance a sweep of any type leaves the one solution of the described upwind
discretisation on the serial mesh. -/
theorem completed_sweep_partial (h : Ready val deck m M P T D) (F : Fits val m) (hs : Sensible val deck m)
    (Ds : Describes val deck m p sS) (hac : p.Acyclic m) (hw : AwayFrom p m tolerance) {psi : Nat → Psi ℝ}
    (hp : Completed M deck T D psi) :
    ∃ psiS : Psi ℝ, p.DG m psiS ∧
      (∀ psi', p.DG m psi' → ∀ c < m.numCells, ∀ a < p.nAngles, ∀ g < p.nGroups, ∀ v, psi' g v a c = psiS g v a c) ∧
      ∀ r < M.n, ∀ i c, (T r).getLGCell i = some c → ∀ g < p.nGroups, ∀ v, ∀ a < p.nAngles,
        psi r g v a i = psiS g v a c := by
  cases hp with
  | traverse hp => exact program_sweep h F hs Ds hp
  | schedule run built swept over data =>
    obtain ⟨psiS, d1, d2, -, d3⟩ := Verif.Schedule.scheduled_serial_partial h.created h.ranks h.loaded
      (describes_physical h.created.tets F hs Ds) (h.runOf F hs Ds) hac tolerance_nonneg hw run built
    refine ⟨psiS, d1, d2, fun r hr i c hc g hg v a ha => ?_⟩
    obtain ⟨psi1, b1, k1, k2⟩ := d3 _ swept over r hr
    obtain ⟨b, k⟩ := data r hr
    rw [k1, Option.some.injEq, Prod.mk.injEq] at k
    rw [← k.1, k2 i c hc g hg v a ha]

/-- C77: schedules exist for every number of angle groups, step size and priorities, and a sweep along them runs
to the end. -/
theorem schedule_finishes_partial (h : Ready val deck m M P T D) (F : Fits val m) (hs : Sensible val deck m)
    (Ds : Describes val deck m p sS) (hac : p.Acyclic m) (hw : AwayFrom p m tolerance) (variant : Variant)
    (nGroups maxCells : Nat) (prio : Nat → Nat → Nat → Nat → Nat) (hG : 0 < nGroups) (hm : maxCells % 2 ^ 32 ≠ 0) :
    ∃ (S : Sweeping ℝ) (s : SweepState S.core) (psi : Nat → Psi ℝ), S.variant = variant ∧ S.nAngleGroups = nGroups ∧
      S.run = M.run deck T D ∧ S.Built maxCells tolerance prio ∧ Verif.Schedule.Swept s ∧ s.Over ∧
      (∀ r < M.n, ∃ bnd, (s.rank r).data = some (psi r, bnd)) ∧ Completed M deck T D psi := by
  have hph := describes_physical h.created.tets F hs Ds
  have hR := h.runOf F hs Ds
  obtain ⟨S, e1, e2, e3, B⟩ := Verif.Schedule.built_exists (M.run deck T D) variant nGroups maxCells tolerance prio hG hm
    (run_linked h.created h.ranks h.loaded hph hR) tolerance_nonneg
    (fun x y a _ => Verif.Schedule.run_opposite h.created h.loaded hph hR)
  obtain ⟨psiS, -, -, ⟨s, h1, h2⟩, h3⟩ := Verif.Schedule.scheduled_serial_partial h.created h.ranks h.loaded hph hR hac
    tolerance_nonneg hw e1 B
  have : ∀ r, ∃ psi : Psi ℝ, r < M.n → ∃ bnd, (s.rank r).data = some (psi, bnd) := by
    intro r
    by_cases hr : r < M.n
    · obtain ⟨psi, b, k, -⟩ := h3 s h1 h2 r hr
      exact ⟨psi, fun _ => ⟨b, k⟩⟩
    · exact ⟨fun _ _ _ _ => 0, fun h => absurd h hr⟩
  choose psi hpsi using this
  exact ⟨S, s, psi, e2, e3, e1, B, h1, h2, hpsi, .schedule e1 B h1 h2 hpsi⟩

/-- C77: from one serial mesh file, whatever the partitioners, the numbers of ranks and the types of sweep,
the output files are equal byte by byte. -/
theorem files_completed_partial (hr : readSerial file = some m) (ht : Tets m) (F : Fits val m) (hs : Sensible val deck m)
    (hsm : Small deck m) (hP : Partitioned val file n g) (hP' : Partitioned val file n' g')
    (h30 : n ≤ 2 ^ 30) (h30' : n' ≤ 2 ^ 30) (hth : 0 < M.threads) (hth' : 0 < M'.threads)
    (hn : M.n = n) (hn' : M'.n = n')
    (hO : Opened val deck g n T D) (hO' : Opened val deck g' n' T' D')
    (Ds : Describes val deck m p sS) (hac : p.Acyclic m) (hw : AwayFrom p m tolerance) {psi psi' : Nat → Psi ℝ}
    (hp : Completed M deck T D psi) (hp' : Completed M' deck T' D' psi')
    (hng : 0 < deck.nGroups) (hna : 0 < deck.dirs.length) (hblock : deck.dirs.length * 4 * deck.nGroups < 2 ^ 31)
    (hfile : 64 + 8 * (m.numCells * (deck.dirs.length * 4 * deck.nGroups)) ≤ 2 ^ 63) {bits : ℝ → Nat}
    {A A' : Nat → PsiData Nat} (hA : Stored bits n T deck.nGroups deck.dirs.length psi A)
    (hA' : Stored bits n' T' deck.nGroups deck.dirs.length psi' A') {f f' : Verif.PsiFile.File}
    (hf : Written n A (lgOf T) f) (hf' : Written n' A' (lgOf T') f') : f = f' := by
  obtain ⟨-, pv, P, h⟩ := opened_ready (M := M) hr ht F hs hsm hP h30 hth
  obtain ⟨-, pv', P', h'⟩ := opened_ready (M := M') hr ht F hs hsm hP' h30' hth'
  subst hn hn'
  have h := h T D hO
  have h' := h' T' D' hO'
  obtain ⟨S, d1, d2, d3⟩ := completed_sweep_partial (M := { M with pv := pv }) h F hs Ds hac hw (psi := psi) (by
    cases hp with
    | traverse k => exact .traverse k
    | schedule a b c d e => exact .schedule a b c d e)
  obtain ⟨S', e1, e2, e3⟩ := completed_sweep_partial (M := { M' with pv := pv' }) h' F hs Ds hac hw (psi := psi') (by
    cases hp' with
    | traverse k => exact .traverse k
    | schedule a b c d e => exact .schedule a b c d e)
  rw [Ds.groups, Ds.angles] at d3 e3 e2
  refine Verif.PsiFile.file_of_cells h.created h.loaded (partitioned_parts hr hP).1 h'.created h'.loaded (partitioned_parts hr hP').1
    hng hna hblock hfile hA hA' (psiS := S') ?_ ?_ hf hf'
  · intro r hr i c hc g hg v a ha
    rw [d3 r hr i c hc g hg v a ha]
    exact e2 S d1 c (isCell_lg h.created h.loaded (lg_isCell h.created h.loaded hr hc)).2.2.2 a ha g hg v
  · intro r hr i c hc g hg v a ha
    exact e3 r hr i c hc g hg v a ha

/-! ### Two cells: away from the tolerance -/

theorem two_away (Ds : Describes twoVal deck twoMesh p sS) (hmu : ∀ d ∈ deck.dirs, tolerance < |d.mu|) :
    AwayFrom p twoMesh tolerance := by
  intro c f c' f' h a ha
  obtain ⟨rfl, -, h1, h2⟩ := twoMesh_across h
  rw [Ds.angles] at ha
  have hd : deck.dirs[a]? = some deck.dirs[a] := List.getElem?_eq_getElem ha
  obtain ⟨e0, e1⟩ := two_omega Ds hd
  have := hmu _ (List.getElem_mem ha)
  interval_cases c
  · rw [e0, abs_neg]; exact this
  · rw [e1]; exact this

theorem order_two_mu {Q : List Verif.Quadrature.Dir} (hq : quadrature 2 = some Q) : ∀ d ∈ Q, tolerance < |d.mu| := by
  intro d hd
  rw [Verif.Quadrature.quadrature_eq (N := 2) rfl, Option.some.injEq] at hq
  subst hq
  simp only [List.mem_flatMap, List.mem_map, List.mem_range] at hd
  obtain ⟨i, hi, k, hk, rfl⟩ := hd
  show tolerance < |Verif.Quadrature.dec (Verif.Quadrature.s_n2.getD i 0)|
  unfold tolerance
  interval_cases i <;> norm_num [Verif.Quadrature.dec, Verif.Quadrature.s_n2]

/-- C77: on the mesh of two cells, a run of `OriginalTycho1` on two ranks with three angle groups and a run that walks the
graph on one rank both come to an end. -/
theorem two_completed : ∃ (deck : Deck) (P P' : ParallelMesh) (T T' : Nat → Mesh) (D D' : Nat → RankData) (psi psi' : Nat → Psi ℝ)
    (p : Problem ℝ) (sS : Nat → ℝ), Sensible twoVal deck twoMesh ∧ Describes twoVal deck twoMesh p sS ∧ p.Acyclic twoMesh ∧
    AwayFrom p twoMesh tolerance ∧ Ready twoVal deck twoMesh twoRanks P T D ∧ Ready twoVal deck twoMesh oneRank P' T' D' ∧
    Completed twoRanks deck T D psi ∧ Completed oneRank deck T' D' psi' ∧
    ∃ (S : Sweeping ℝ), S.variant = .tycho1 ∧ S.nAngleGroups = 3 ∧ S.run = twoRanks.run deck T D := by
  obtain ⟨Q, hQ⟩ := (Verif.Quadrature.orders 2).2 (by decide)
  let deck : Deck := ⟨2, Q, 1, 1 / 2, 2, 0⟩
  have hs : Sensible twoVal deck twoMesh := two_sensible (deck := deck) hQ (by norm_num [deck]) (by norm_num [deck])
  have hlen : Q.length = 8 := by
    have := Verif.Quadrature.count hQ
    omega
  obtain ⟨p, sS, Ds⟩ := describes_exists twoMesh_tets two_fits hs
  have hw := two_away Ds (order_two_mu hQ)
  obtain ⟨P, T, D, h⟩ := program_starts (M := twoRanks) twoMesh_tets (by decide) (by decide) two_fits hs rfl (by decide) (by decide)
    (by decide) (by show Q.length * 2 < 2 ^ 64; rw [hlen]; norm_num)
  obtain ⟨P', T', D', h'⟩ := program_starts (M := oneRank) twoMesh_tets (by decide) (by decide) two_fits hs rfl (by decide) (by decide)
    (by decide) (by show Q.length * 2 < 2 ^ 64; rw [hlen]; norm_num)
  obtain ⟨S, s, psi, k1, k2, k3, -, -, -, -, k4⟩ := schedule_finishes_partial h two_fits hs Ds (two_acyclic Ds) hw .tycho1 3 1
    (fun _ _ _ _ => 0) (by decide) (by decide)
  obtain ⟨psi', hp'⟩ := program_finishes h' two_fits hs Ds (two_acyclic Ds) (away_transversal hw) (by decide) rfl
  exact ⟨deck, P, P', T, T', D, D', psi, psi', p, sS, hs, Ds, two_acyclic Ds, hw, h, h', k4, .traverse hp', S, k1, k2, k3⟩

/-! ### cube-12: within the tolerance -/

theorem face_of {c g : Nat} {f k : Fin 4} (h : Cert.onFace m c f k = some g) : FaceOf m c f g := by
  unfold Cert.onFace at h
  obtain ⟨d, hd, h⟩ := Option.bind_eq_some_iff.1 h
  obtain ⟨e, he, h⟩ := Option.bind_eq_some_iff.1 h
  split at h
  · next hj =>
    rw [Option.some.injEq] at h
    exact ⟨d, e, k, hd, h, by rw [← h]; exact he, hj⟩
  · cases h

theorem cube_near : ∀ s0 s1 s2, ∃ x ∈ cubeAdj,
    (x.1 ≠ x.2.2.1 ∧ x.1 < cubeMesh.numCells ∧ ∃ k k', Cert.onFace cubeMesh x.1 x.2.1 k ≠ none ∧
      Cert.onFace cubeMesh x.2.2.1 x.2.2.2 k' = Cert.onFace cubeMesh x.1 x.2.1 k) ∧
    (|(cubeBox s0 s1 s2).low (Cert.outI (cubeI x.1) x.2.1)| * 10 ^ 10) ^ 2 ≤
      10 ^ 60 * (Cert.outI (cubeI x.1) x.2.1 0 ^ 2 + Cert.outI (cubeI x.1) x.2.1 1 ^ 2 + Cert.outI (cubeI x.1) x.2.1 2 ^ 2) ∧
    (|(cubeBox s0 s1 s2).high (Cert.outI (cubeI x.1) x.2.1)| * 10 ^ 10) ^ 2 ≤
      10 ^ 60 * (Cert.outI (cubeI x.1) x.2.1 0 ^ 2 + Cert.outI (cubeI x.1) x.2.1 1 ^ 2 + Cert.outI (cubeI x.1) x.2.1 2 ^ 2) := by
  decide +kernel

/-- C77: on util/cube-12.smesh every direction of the quadrature of order 2 is closer to parallel to some interior face
than the tolerance of the schedules, without being parallel. -/
theorem cube_within (hq : quadrature 2 = some deck.dirs) (Ds : Describes ieeeVal deck cubeMesh p sS) :
    ∀ a < p.nAngles, ∃ c f c' f', Across cubeMesh c f c' f' ∧ p.omegaDotN a c f ≠ 0 ∧ |p.omegaDotN a c f| ≤ tolerance := by
  intro a ha
  have ha' := ha
  rw [Ds.angles] at ha
  have hd : deck.dirs[a]? = some deck.dirs[a] := List.getElem?_eq_getElem ha
  obtain ⟨s0, s1, s2, hb⟩ := cube_dirs hq (List.getElem_mem ha)
  obtain ⟨⟨c, f, c', f'⟩, -, ⟨hne, hc, k, k', hk, hk'⟩, hlo, hhi⟩ := cube_near s0 s1 s2
  dsimp only at hne hc hk hk' hlo hhi
  obtain ⟨gf, hg⟩ := Option.ne_none_iff_exists'.1 hk
  have hx : Across cubeMesh c f c' f' := ⟨hne, gf, face_of hg, face_of (hk'.trans hg)⟩
  refine ⟨c, f, c', f', hx, cube_transversal hq Ds c f c' f' hx a ha', ?_⟩
  rw [Cert.omega_eq cube_scaled cube_normals Ds hc f hd]
  obtain ⟨b1, b2⟩ := hb.between (Cert.outI (cubeI c) f)
  have hl := Cert.len_pos cube_normals hc f
  have hsq : Cert.len (Cert.outI (cubeI c) f) ^ 2 = (Cert.outI (cubeI c) f 0 : ℝ) ^ 2 + (Cert.outI (cubeI c) f 1 : ℝ) ^ 2 +
      (Cert.outI (cubeI c) f 2 : ℝ) ^ 2 := Real.sq_sqrt (by positivity)
  generalize Cert.outI (cubeI c) f = N at *
  generalize (deck.dirs[a].xi * (N 0 : ℝ) + deck.dirs[a].eta * N 1 + deck.dirs[a].mu * N 2) = x at *
  generalize (cubeBox s0 s1 s2).low N = lo at *
  generalize (cubeBox s0 s1 s2).high N = hi at *
  have key : ∀ z : ℤ, (|z| * 10 ^ 10) ^ 2 ≤ 10 ^ 60 * (N 0 ^ 2 + N 1 ^ 2 + N 2 ^ 2) → |(z : ℝ)| * 10 ^ 10 ≤ 10 ^ 30 * Cert.len N := by
    intro z hz
    refine le_of_sq_le_sq ?_ (by positivity)
    rw [mul_pow (10 ^ 30 : ℝ), hsq]
    have : (((|z| * 10 ^ 10) ^ 2 : ℤ) : ℝ) ≤ ((10 ^ 60 * (N 0 ^ 2 + N 1 ^ 2 + N 2 ^ 2) : ℤ) : ℝ) := by exact_mod_cast hz
    simp only [Int.cast_add, Int.cast_mul, Int.cast_pow, Int.cast_abs, Int.cast_ofNat] at this
    linarith
  have hbound : |x * 10 ^ 30| ≤ max |(lo : ℝ)| |(hi : ℝ)| := abs_le_max_abs_abs b1 b2
  have hmax : max |(lo : ℝ)| |(hi : ℝ)| * 10 ^ 10 ≤ 10 ^ 30 * Cert.len N := by
    rcases max_choice |(lo : ℝ)| |(hi : ℝ)| with h | h <;> rw [h]
    · exact key _ hlo
    · exact key _ hhi
  rw [abs_mul, abs_of_pos (show (0 : ℝ) < 10 ^ 30 by positivity)] at hbound
  unfold tolerance
  rw [abs_div, abs_of_pos hl, div_le_div_iff₀ hl (by positivity)]
  nlinarith

/-- C77: so the results on scheduled sweeps say nothing about this mesh and quadrature. -/
theorem cube_not_away (hq : quadrature 2 = some deck.dirs) (Ds : Describes ieeeVal deck cubeMesh p sS) :
    ¬ AwayFrom p cubeMesh tolerance := by
  intro h
  have hlen : 0 < p.nAngles := by
    have := Verif.Quadrature.count hq
    rw [Ds.angles]; omega
  obtain ⟨c, f, c', f', h1, -, h2⟩ := cube_within hq Ds 0 hlen
  exact absurd (h c f c' f' h1 0 hlen) (not_lt.2 h2)

end Verif.Program
