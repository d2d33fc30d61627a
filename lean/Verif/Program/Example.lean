import Verif.Program.Result

/-!
# Example: two tetrahedra in the cube (C70)
-/
set_option linter.unusedVariables false
namespace Verif.Program

open Verif.MeshFile Verif.Geometry Verif.Geometry.Spec Verif.Program.Spec
open Verif.TychoMesh hiding exMesh_across
open Verif.Traverse (Psi)

/-- Two tetrahedra with materials 1 and 2 sharing a face in the plane z = 40, near the centre. -/
def twoMesh : SerialMesh where
  numCells := 2
  numFaces := 7
  numNodes := 5
  cells := [⟨![0, 1, 2, 3], ![0, 1, 2, 3], 1⟩, ⟨![4, 5, 0, 6], ![4, 1, 2, 3], 2⟩]
  faces := [⟨![0, 1], ![1, 2, 3]⟩, ⟨![0, invalid], ![0, 2, 3]⟩, ⟨![0, invalid], ![0, 1, 3]⟩,
    ⟨![0, invalid], ![0, 1, 2]⟩, ⟨![1, invalid], ![4, 1, 2]⟩, ⟨![1, invalid], ![4, 1, 3]⟩,
    ⟨![1, invalid], ![4, 2, 3]⟩]
  nodes := [⟨![50, 50, 60]⟩, ⟨![50, 50, 40]⟩, ⟨![60, 50, 40]⟩, ⟨![50, 60, 40]⟩, ⟨![50, 50, 30]⟩]

/-- Coordinates of the example. -/
def twoVal (b : Nat) : ℝ := b

theorem twoMesh_tets : Tets twoMesh :=
  Check.tets (sig := fun c => if c = 0 then ![0, 1, 2, 3] else ![3, 2, 0, 1]) ⟨rfl, rfl, rfl, by decide, by decide +kernel, by decide +kernel⟩

theorem twoMesh_across {c c' : Nat} {f f' : Fin 4} (h : Across twoMesh c f c' f') : f = 0 ∧ f' = 0 ∧ c < 2 ∧ c' < 2 := by
  obtain ⟨hne, g, ⟨d, e, k, h1, h2, h3, h4⟩, ⟨d', e', k', h1', h2', h3', h4'⟩⟩ := h
  rw [h3, Option.some.injEq] at h3'
  subst h3'
  have hc : c < 2 := (List.getElem?_eq_some_iff.1 h1).1
  have hc' : c' < 2 := (List.getElem?_eq_some_iff.1 h1').1
  obtain ⟨j, hj⟩ := twoMesh_tets.toSound.lists c d k e h1 (by rw [h2]; exact h3)
  obtain ⟨j', hj'⟩ := twoMesh_tets.toSound.lists c' d' k' e h1' (by rw [h2']; exact h3)
  have hg : g < 7 := (List.getElem?_eq_some_iff.1 h3).1
  have hg0 : g = 0 := by
    interval_cases g <;> simp [twoMesh] at h3 <;> subst h3 <;>
      (revert hj hj'; interval_cases c <;> interval_cases c' <;> (try exact absurd rfl hne) <;> revert j j' <;> decide)
  subst hg0
  simp [twoMesh] at h3
  subst h3
  refine ⟨?_, ?_, hc, hc'⟩
  · interval_cases c <;> simp [twoMesh] at h1 <;> subst h1 <;> (revert h4; clear * -; revert f; decide)
  · interval_cases c' <;> simp [twoMesh] at h1' <;> subst h1' <;> (revert h4'; clear * -; revert f'; decide)

theorem two_pts0 : pts twoVal twoMesh 0 = ![![50, 50, 60], ![50, 50, 40], ![60, 50, 40], ![50, 60, 40]] := by
  funext v k
  fin_cases v <;> fin_cases k <;> simp [pts, twoMesh, twoVal]

theorem two_pts1 : pts twoVal twoMesh 1 = ![![50, 50, 30], ![50, 50, 40], ![60, 50, 40], ![50, 60, 40]] := by
  funext v k
  fin_cases v <;> fin_cases k <;> simp [pts, twoMesh, twoVal]

theorem two_fits : Fits twoVal twoMesh where
  nondeg := by
    intro c hc n0 n1 n2 d h
    have hc : c < 2 := hc
    have e0 := h 0
    have e1 := h 1
    have e2 := h 2
    have e3 := h 3
    interval_cases c
    · simp only [two_pts0] at e0 e1 e2 e3
      simp at e0 e1 e2 e3
      refine ⟨?_, ?_, ?_⟩ <;> linarith
    · simp only [two_pts1] at e0 e1 e2 e3
      simp at e0 e1 e2 e3
      refine ⟨?_, ?_, ?_⟩ <;> linarith
  sides := by
    intro c f c' f' h
    obtain ⟨rfl, rfl, h1, h2⟩ := twoMesh_across h
    have hne := h.1
    interval_cases c <;> interval_cases c' <;> first | exact absurd rfl hne | skip
    · rw [two_pts0, two_pts1]
      refine ⟨0, 0, -1, -40, ?_, ?_, ?_⟩
      · intro v; fin_cases v <;> simp [facePoints, Fin.succAbove]
      · simp; norm_num
      · simp; norm_num
    · rw [two_pts0, two_pts1]
      refine ⟨0, 0, 1, 40, ?_, ?_, ?_⟩
      · intro v; fin_cases v <;> simp [facePoints, Fin.succAbove]
      · simp; norm_num
      · simp; norm_num

theorem two_normal0 : OutwardUnitNormal (pts twoVal twoMesh 0) 0 ![0, 0, -1] := by
  rw [two_pts0]
  refine ⟨by simp, ?_, ?_⟩
  · intro i j hi hj; fin_cases i <;> fin_cases j <;> simp at hi hj ⊢
  · intro j hj; fin_cases j <;> simp at hj ⊢ <;> norm_num

theorem two_normal1 : OutwardUnitNormal (pts twoVal twoMesh 1) 0 ![0, 0, 1] := by
  rw [two_pts1]
  refine ⟨by simp, ?_, ?_⟩
  · intro i j hi hj; fin_cases i <;> fin_cases j <;> simp at hi hj ⊢
  · intro j hj; fin_cases j <;> simp at hj ⊢ <;> norm_num

variable {deck : Deck}

theorem two_sensible {N : Nat} (hq : Verif.Quadrature.quadrature N = some deck.dirs) (h1 : 0 ≤ deck.sigmaT1)
    (h2 : 0 ≤ deck.sigmaT2) : Sensible twoVal deck twoMesh := by
  refine quadrature_sensible hq (by decide) ?_ h1 h2
  intro c hc v
  have hc : c < 2 := hc
  unfold radius
  refine (Real.sqrt_pos.2 ?_).ne'
  interval_cases c
  · rw [two_pts0]; fin_cases v <;> simp <;> norm_num
  · rw [two_pts1]; fin_cases v <;> simp <;> norm_num

theorem two_omega {p : Problem ℝ} {sS : Nat → ℝ} (Ds : Describes twoVal deck twoMesh p sS) {a : Nat}
    {d : Verif.Quadrature.Dir} (hd : deck.dirs[a]? = some d) :
    p.omegaDotN a 0 0 = - d.mu ∧ p.omegaDotN a 1 0 = d.mu := by
  have e0 := Ds.omega 0 (by decide) 0 _ two_normal0 a d hd
  have e1 := Ds.omega 1 (by decide) 0 _ two_normal1 a d hd
  simp at e0 e1
  exact ⟨e0, e1⟩

theorem two_transversal {p : Problem ℝ} {sS : Nat → ℝ} (Ds : Describes twoVal deck twoMesh p sS)
    (hmu : ∀ d ∈ deck.dirs, d.mu ≠ 0) : p.Transversal twoMesh := by
  intro c f c' f' h a ha
  obtain ⟨rfl, -, h1, h2⟩ := twoMesh_across h
  rw [Ds.angles] at ha
  have hd : deck.dirs[a]? = some deck.dirs[a] := List.getElem?_eq_getElem ha
  obtain ⟨e0, e1⟩ := two_omega Ds hd
  have := hmu _ (List.getElem_mem ha)
  interval_cases c
  · rw [e0]; exact neg_ne_zero.2 this
  · rw [e1]; exact this

theorem two_acyclic {p : Problem ℝ} {sS : Nat → ℝ} (Ds : Describes twoVal deck twoMesh p sS) : p.Acyclic twoMesh := by
  intro a ha c h
  rw [Ds.angles] at ha
  have hd : deck.dirs[a]? = some deck.dirs[a] := List.getElem?_eq_getElem ha
  obtain ⟨e0, e1⟩ := two_omega Ds hd
  have step : ∃ k, ∀ {c c' : Nat}, (∃ f f', Across twoMesh c f c' f' ∧ 0 < p.omegaDotN a c f) → c = k ∧ c' ≠ k := by
    by_cases hp : 0 < deck.dirs[a].mu
    · refine ⟨1, ?_⟩
      rintro c c' ⟨f, f', hx, hw⟩
      obtain ⟨rfl, -, h1, h2⟩ := twoMesh_across hx
      have hne := hx.1
      interval_cases c
      · rw [e0] at hw; linarith
      · exact ⟨rfl, hne.symm⟩
    · refine ⟨0, ?_⟩
      rintro c c' ⟨f, f', hx, hw⟩
      obtain ⟨rfl, -, h1, h2⟩ := twoMesh_across hx
      have hne := hx.1
      interval_cases c
      · exact ⟨rfl, hne.symm⟩
      · rw [e1] at hw; exact absurd hw hp
  obtain ⟨k, hk⟩ := step
  have : ∀ {c c' : Nat}, Relation.TransGen (fun c c' => ∃ f f', Across twoMesh c f c' f' ∧ 0 < p.omegaDotN a c f) c c' →
      c = k ∧ c' ≠ k := by
    intro c c' h
    induction h with
    | single h => exact hk h
    | tail _ h ih => exact ⟨ih.1, (hk h).2⟩
  exact (this h).2 (this h).1

/-- A run on one rank with one thread. -/
def oneRank : Mode := ⟨[0, 0], 1, 1, 1, .tycho, true, .original, fun _ _ _ => 0, fun _ _ _ _ _ => 7, fun _ _ _ _ _ => 3, fun _ _ => 0⟩

/-- A run on two ranks, cell 0 on rank 1, with three threads. -/
def twoRanks : Mode := ⟨[1, 0], 2, 3, 5, .tycho, false, .original, fun _ _ _ => 1, fun _ _ _ _ _ => 2, fun _ _ _ _ _ => 0, fun _ _ => 1⟩

/-- C70: with the quadrature of order 4, two groups and cross sections 1, 0.5 and 2, 0: both runs start and
finish, so `program_sweep` and `program_independent` apply to them. -/
theorem two_runs : ∃ (deck : Deck) (P P' : ParallelMesh) (T T' : Nat → Mesh) (D D' : Nat → RankData) (psi psi' : Nat → Psi ℝ),
    Verif.Quadrature.quadrature 4 = some deck.dirs ∧ deck.nGroups = 2 ∧ Sensible twoVal deck twoMesh ∧
    deck.sigmaT1 = 1 ∧ deck.sigmaS1 = 1 / 2 ∧ deck.sigmaT2 = 2 ∧ deck.sigmaS2 = 0 ∧
    Ready twoVal deck twoMesh oneRank P T D ∧ Ready twoVal deck twoMesh twoRanks P' T' D' ∧
    Swept oneRank deck T D psi ∧ Swept twoRanks deck T' D' psi' := by
  obtain ⟨Q, hQ⟩ := (Verif.Quadrature.orders 4).2 (by decide)
  let deck : Deck := ⟨2, Q, 1, 1 / 2, 2, 0⟩
  have hs : Sensible twoVal deck twoMesh := two_sensible (deck := deck) hQ (by norm_num [deck]) (by norm_num [deck])
  have hlen : Q.length = 32 := by
    have := Verif.Quadrature.count hQ
    omega
  obtain ⟨p, sS, Ds⟩ := describes_exists twoMesh_tets two_fits hs
  have hmu : ∀ d ∈ deck.dirs, d.mu ≠ 0 := by
    intro d hd
    exact (Verif.Quadrature.off_planes hQ d hd).2.2
  obtain ⟨P, T, D, h⟩ := program_starts (M := oneRank) twoMesh_tets (by decide) (by decide) two_fits hs rfl (by decide) (by decide)
    (by decide) (by show Q.length * 2 < 2 ^ 64; rw [hlen]; norm_num)
  obtain ⟨P', T', D', h'⟩ := program_starts (M := twoRanks) twoMesh_tets (by decide) (by decide) two_fits hs rfl (by decide) (by decide)
    (by decide) (by show Q.length * 2 < 2 ^ 64; rw [hlen]; norm_num)
  obtain ⟨psi, hp⟩ := program_finishes h two_fits hs Ds (two_acyclic Ds) (two_transversal Ds hmu) (by decide) rfl
  obtain ⟨psi', hp'⟩ := program_finishes h' two_fits hs Ds (two_acyclic Ds) (two_transversal Ds hmu) (by decide) rfl
  exact ⟨deck, P, P', T, T', D, D', psi, psi', hQ, rfl, hs, rfl, rfl, rfl, rfl, h, h', hp, hp'⟩

end Verif.Program
