import Verif.Program.Files

/-!
# Meshes without cycles for any direction (C76)

A triangulation is regular if its cells are the linear pieces of a convex function, as for a Delaunay
triangulation, or a weighted one. On such a mesh no direction has a cycle of upwind cells, so that sweeps
come to an end whatever the quadrature.
-/
set_option linter.unusedVariables false
namespace Verif.Program

open Verif.MeshFile Verif.TychoMesh Verif.Geometry Verif.Geometry.Spec Verif.Program.Spec

/-- The cells are the pieces of a convex function with the values `h` at the vertices: the linear function of
a cell is below it at the vertex beyond a face. -/
def Regular (val : Nat → ℝ) (m : SerialMesh) : Prop :=
  ∃ (h : Pt → ℝ) (a : Nat → Pt) (b : Nat → ℝ),
    (∀ c < m.numCells, ∀ v, a c 0 * pts val m c v 0 + a c 1 * pts val m c v 1 + a c 2 * pts val m c v 2 + b c = h (pts val m c v)) ∧
    ∀ c f c' f', Across m c f c' f' →
      a c 0 * pts val m c' f' 0 + a c 1 * pts val m c' f' 1 + a c 2 * pts val m c' f' 2 + b c < h (pts val m c' f')

/-- The square of the distance of two points. -/
def dist2 (x y : Pt) : ℝ := (x 0 - y 0) ^ 2 + (x 1 - y 1) ^ 2 + (x 2 - y 2) ^ 2

/-- The sphere around a cell does not contain the vertex beyond a face. -/
def Delaunay (val : Nat → ℝ) (m : SerialMesh) : Prop :=
  ∃ (o : Nat → Pt) (r2 : Nat → ℝ), (∀ c < m.numCells, ∀ v, dist2 (pts val m c v) (o c) = r2 c) ∧
    ∀ c f c' f', Across m c f c' f' → r2 c < dist2 (pts val m c' f') (o c)

/-- Particles of direction `om` go from cell `c` to cell `c'` through a common face. -/
def Flows (val : Nat → ℝ) (m : SerialMesh) (om : Verif.Quadrature.Dir) (c c' : Nat) : Prop :=
  ∃ f f' n, Across m c f c' f' ∧ OutwardUnitNormal (pts val m c) f n ∧ 0 < om.xi * n 0 + om.eta * n 1 + om.mu * n 2

/-- Direction `om` has no cycle of cells on the mesh. -/
def NoCycle (val : Nat → ℝ) (m : SerialMesh) (om : Verif.Quadrature.Dir) : Prop :=
  ∀ c, ¬ Relation.TransGen (Flows val m om) c c

variable {val : Nat → ℝ} {deck : Deck} {m : SerialMesh} {p : Problem ℝ} {sS : Nat → ℝ}

theorem Delaunay.regular (H : Tets m) (h : Delaunay val m) : Regular val m := by
  obtain ⟨o, r2, h1, h2⟩ := h
  refine ⟨fun x => x 0 ^ 2 + x 1 ^ 2 + x 2 ^ 2, fun c k => 2 * o c k, fun c => r2 c - (o c 0 ^ 2 + o c 1 ^ 2 + o c 2 ^ 2), ?_, ?_⟩
  · intro c hc v
    have := h1 c hc v
    unfold dist2 at this
    dsimp only
    linear_combination -this
  · intro c f c' f' hx
    have := h2 c f c' f' hx
    unfold dist2 at this
    dsimp only
    linarith

/-- A vector perpendicular to a face is a multiple of its normal. -/
theorem normal_multiple {q : Fin 4 → Pt} {f : Fin 4} {n δ : Pt} (hq : NonCoplanar q) (hn : OutwardUnitNormal q f n)
    (hd : ∀ i j, i ≠ f → j ≠ f → δ 0 * (q i 0 - q j 0) + δ 1 * (q i 1 - q j 1) + δ 2 * (q i 2 - q j 2) = 0) :
    ∃ l : ℝ, ∀ k, δ k = l * n k := by
  obtain ⟨-, hn2, hn3⟩ := hn
  have hj : f.succAbove 0 ≠ f := Fin.succAbove_ne f 0
  generalize f.succAbove 0 = j at hj
  have hs := hn3 j hj
  generalize hsd : n 0 * (q f 0 - q j 0) + n 1 * (q f 1 - q j 1) + n 2 * (q f 2 - q j 2) = s at hs
  generalize htd : δ 0 * (q f 0 - q j 0) + δ 1 * (q f 1 - q j 1) + δ 2 * (q f 2 - q j 2) = t
  obtain ⟨h0, h1, h2⟩ := hq (s * δ 0 - t * n 0) (s * δ 1 - t * n 1) (s * δ 2 - t * n 2)
    ((s * δ 0 - t * n 0) * q j 0 + (s * δ 1 - t * n 1) * q j 1 + (s * δ 2 - t * n 2) * q j 2) (by
      intro i
      by_cases hi : i = f
      · subst hi; linear_combination s * htd - t * hsd
      · linear_combination s * hd i j hi hj - t * hn2 i j hi hj)
  refine ⟨t / s, fun k => ?_⟩
  have hne := hs.ne
  have key : ∀ x y : ℝ, s * x - t * y = 0 → x = t / s * y := by
    intro x y h
    field_simp
    linarith
  match k with
  | 0 => exact key _ _ h0
  | 1 => exact key _ _ h1
  | 2 => exact key _ _ h2

/-- The vertex beyond a face is on the side its normal points to. -/
theorem normal_beyond {q : Fin 4 → Pt} {f : Fin 4} {n y : Pt} (hq : NonCoplanar q) (hn : OutwardUnitNormal q f n)
    (hs : Separates (facePoints q f.succAbove) (q f) y) {j : Fin 4} (hj : j ≠ f) :
    0 < n 0 * (y 0 - q j 0) + n 1 * (y 1 - q j 1) + n 2 * (y 2 - q j 2) := by
  obtain ⟨m0, m1, m2, d, h1, h2, h3⟩ := hs
  have hface : ∀ i, i ≠ f → m0 * q i 0 + m1 * q i 1 + m2 * q i 2 = d := by
    intro i hi
    obtain ⟨v, rfl⟩ := Fin.exists_succAbove_eq hi
    exact h1 v
  obtain ⟨l, hl⟩ := normal_multiple (δ := ![m0, m1, m2]) hq hn (by
    intro i i' hi hi'
    have a := hface i hi
    have b := hface i' hi'
    simp
    linarith)
  have l0 := hl 0
  have l1 := hl 1
  have l2 := hl 2
  simp at l0 l1 l2
  have hb := hface j hj
  have hneg := hn.2.2 j hj
  have e1 : l * (n 0 * (q f 0 - q j 0) + n 1 * (q f 1 - q j 1) + n 2 * (q f 2 - q j 2)) < 0 := by
    rw [l0, l1, l2] at h2 hb
    linarith
  have e2 : 0 < l * (n 0 * (y 0 - q j 0) + n 1 * (y 1 - q j 1) + n 2 * (y 2 - q j 2)) := by
    rw [l0, l1, l2] at h3 hb
    linarith
  have hlp : 0 < l := by
    by_contra h
    have := mul_nonneg_of_nonpos_of_nonpos (not_lt.1 h) hneg.le
    linarith
  exact pos_of_mul_pos_right e2 hlp.le

/-- The problem has no cycle if no direction has one. -/
theorem acyclic_iff (H : Tets m) (F : Fits val m) (Ds : Describes val deck m p sS) : p.Acyclic m ↔ ∀ om ∈ deck.dirs, NoCycle val m om := by
  have key {a : Nat} {om : Verif.Quadrature.Dir} (ha : deck.dirs[a]? = some om) {c c' : Nat} :
      (∃ f f', Across m c f c' f' ∧ 0 < p.omegaDotN a c f) ↔ Flows val m om c c' := by
    constructor
    · rintro ⟨f, f', hx, hw⟩
      have hc := (across_cells H hx).1
      obtain ⟨n, -, hn⟩ := normal_outward (pts val m c) f f.succAbove (std_table f) (F.nondeg c hc)
      rw [Ds.omega c hc f n hn a om ha] at hw
      exact ⟨f, f', n, hx, hn, hw⟩
    · rintro ⟨f, f', n, hx, hn, hw⟩
      rw [← Ds.omega c (across_cells H hx).1 f n hn a om ha] at hw
      exact ⟨f, f', hx, hw⟩
  constructor
  · intro h om hom c ht
    obtain ⟨a, ha⟩ := List.mem_iff_getElem?.1 hom
    have hl : a < p.nAngles := by rw [Ds.angles]; exact (List.getElem?_eq_some_iff.1 ha).1
    exact h a hl c (ht.lift id fun _ _ => (key ha).2)
  · intro h a ha c ht
    rw [Ds.angles] at ha
    exact h _ (List.getElem_mem ha) c (ht.lift id fun _ _ => (key (List.getElem?_eq_getElem ha)).1)

/-- C76: on a regular triangulation no direction has a cycle. -/
theorem regular_noCycle (H : Tets m) (F : Fits val m) (hR : Regular val m) (d : Verif.Quadrature.Dir) : NoCycle val m d := by
  obtain ⟨h, al, b, h1, h2⟩ := hR
  intro c hcyc
  have step : ∀ {c c' : Nat}, Flows val m d c c' →
      d.xi * al c 0 + d.eta * al c 1 + d.mu * al c 2 < d.xi * al c' 0 + d.eta * al c' 1 + d.mu * al c' 2 := by
    rintro c c' ⟨f, f', n, hx, hn, hw⟩
    obtain ⟨hc, hc'⟩ := across_cells H hx
    have nd := F.nondeg c hc
    have hx' : Across m c' f' c f := ⟨hx.1.symm, by obtain ⟨-, g, a, b⟩ := hx; exact ⟨g, b, a⟩⟩
    -- the difference of the linear functions vanishes on the common face
    have zero : ∀ i, i ≠ f → (al c' 0 - al c 0) * pts val m c i 0 + (al c' 1 - al c 1) * pts val m c i 1 +
        (al c' 2 - al c 2) * pts val m c i 2 + (b c' - b c) = 0 := by
      intro i hi
      obtain ⟨j, -, e⟩ := across_share (val := val) H hx' i hi
      have q1 := h1 c hc i
      have q2 := h1 c' hc' j
      rw [← e] at q2
      linarith
    obtain ⟨l, hl⟩ := normal_multiple (δ := fun k => al c' k - al c k) nd hn (by
      intro i j hi hj
      have a := zero i hi
      have b := zero j hj
      linarith)
    have l0 := hl 0
    have l1 := hl 1
    have l2 := hl 2
    have hj : f.succAbove 0 ≠ f := Fin.succAbove_ne f 0
    have hbey := normal_beyond nd hn (F.sides c f c' f' hx) hj
    have z := zero _ hj
    have q1 := h1 c' hc' f'
    have q2 := h2 c f c' f' hx
    have e : 0 < l * (n 0 * (pts val m c' f' 0 - pts val m c (f.succAbove 0) 0) + n 1 * (pts val m c' f' 1 - pts val m c (f.succAbove 0) 1) +
        n 2 * (pts val m c' f' 2 - pts val m c (f.succAbove 0) 2)) := by
      have : l * (n 0 * (pts val m c' f' 0 - pts val m c (f.succAbove 0) 0) + n 1 * (pts val m c' f' 1 - pts val m c (f.succAbove 0) 1) +
          n 2 * (pts val m c' f' 2 - pts val m c (f.succAbove 0) 2)) = h (pts val m c' f') -
          (al c 0 * pts val m c' f' 0 + al c 1 * pts val m c' f' 1 + al c 2 * pts val m c' f' 2 + b c) := by
        rw [l0, l1, l2] at z
        have k0 : al c' 0 = al c 0 + l * n 0 := by linarith
        have k1 : al c' 1 = al c 1 + l * n 1 := by linarith
        have k2 : al c' 2 = al c 2 + l * n 2 := by linarith
        rw [k0, k1, k2] at q1
        linear_combination q1 - z
      rw [this]
      linarith
    have hlp : 0 < l := pos_of_mul_pos_left e hbey.le
    have : 0 < l * (d.xi * n 0 + d.eta * n 1 + d.mu * n 2) := mul_pos hlp hw
    have : d.xi * al c' 0 + d.eta * al c' 1 + d.mu * al c' 2 - (d.xi * al c 0 + d.eta * al c 1 + d.mu * al c 2) =
        l * (d.xi * n 0 + d.eta * n 1 + d.mu * n 2) := by linear_combination d.xi * l0 + d.eta * l1 + d.mu * l2
    linarith
  have chain : ∀ {c c' : Nat}, Relation.TransGen (Flows val m d) c c' →
      d.xi * al c 0 + d.eta * al c 1 + d.mu * al c 2 < d.xi * al c' 0 + d.eta * al c' 1 + d.mu * al c' 2 := by
    intro c c' h
    induction h with
    | single h => exact step h
    | tail _ h ih => exact ih.trans (step h)
  exact lt_irrefl _ (chain hcyc)

/-- C76: on a regular triangulation the upwind relation has no cycle. -/
theorem regular_acyclic (H : Tets m) (F : Fits val m) (hR : Regular val m) (Ds : Describes val deck m p sS) : p.Acyclic m :=
  (acyclic_iff H F Ds).2 fun om _ => regular_noCycle H F hR om

/-- C76: the sweeps on a Delaunay mesh come to an end, for every quadrature with no direction in a face. -/
theorem delaunay_finishes {M : Mode} {P : ParallelMesh} {T : Nat → Mesh} {D : Nat → RankData}
    (h : Ready val deck m M P T D) (F : Fits val m) (hs : Sensible val deck m) (Ds : Describes val deck m p sS)
    (hD : Delaunay val m) (htr : p.Transversal m) (hb : 0 < M.batch) (hproto : M.proto = .tycho) :
    ∃ psi, Swept M deck T D psi :=
  program_finishes h F hs Ds (regular_acyclic h.created.tets F (hD.regular h.created.tets) Ds) htr hb hproto

/-- The mesh of two cells is a Delaunay mesh. -/
theorem two_delaunay : Delaunay twoVal twoMesh := by
  refine ⟨fun c => if c = 0 then ![55, 55, 50] else ![55, 55, 35], fun c => if c = 0 then 150 else 75, ?_, ?_⟩
  · intro c hc v
    have hc : c < 2 := hc
    interval_cases c
    · rw [two_pts0]; fin_cases v <;> simp [dist2] <;> norm_num
    · rw [two_pts1]; fin_cases v <;> simp [dist2] <;> norm_num
  · intro c f c' f' hx
    obtain ⟨rfl, rfl, h1, h2⟩ := twoMesh_across hx
    have hne := hx.1
    interval_cases c <;> interval_cases c' <;> first | exact absurd rfl hne | skip
    · rw [two_pts1]; simp [dist2]; norm_num
    · rw [two_pts0]; simp [dist2]; norm_num

/-- `delaunay_finishes` applies to it: runs on one and on two ranks start, and come to an end. -/
example : ∃ (deck : Deck) (P : ParallelMesh) (T : Nat → Mesh) (D : Nat → RankData) (psi : Nat → Verif.Traverse.Psi ℝ),
    Ready twoVal deck twoMesh twoRanks P T D ∧ Swept twoRanks deck T D psi := by
  obtain ⟨deck, -, P, -, T, -, D, -, -, hQ, -, hs, -, -, -, -, -, h, -⟩ := two_runs
  obtain ⟨p, sS, Ds⟩ := describes_exists twoMesh_tets two_fits hs
  have hmu : ∀ d ∈ deck.dirs, d.mu ≠ 0 := fun d hd => (Verif.Quadrature.off_planes hQ d hd).2.2
  obtain ⟨psi, hp⟩ := delaunay_finishes h two_fits hs Ds two_delaunay (two_transversal Ds hmu) (show 0 < 5 by decide) rfl
  exact ⟨deck, P, T, D, psi, h, hp⟩

end Verif.Program
