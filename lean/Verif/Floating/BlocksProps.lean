import Verif.Floating.Blocks
import Verif.Floating.JacobiProps

/-!
# `SweeperPBJSI` makes the iterates of block Jacobi (C104)
-/
set_option linter.unusedSectionVars false
namespace Verif.Floating

open Verif.MeshFile Verif.TychoMesh Verif.Traverse Verif.Floating.Spec Verif.PsiFile Verif.Storage

variable {F : Type} {nA nG : Nat} {K : Kernel F nA nG} {coord : Nat → F}
variable {S : Type} [LinearOrder S] {val : Nat → S} {m : SerialMesh} {pv : List Nat} {n : Nat} {P : ParallelMesh} {T : Nat → Mesh}
variable {S' : Type} [LinearOrder S'] {val' : Nat → S'} {pv' : List Nat} {n' : Nat} {P' : ParallelMesh} {T' : Nat → Mesh}
variable {D D' : Nat → Tables F} {sched : Schedule F} {source psi0 : Nat → Psi F}

/-- Block solutions for the flux of the blocks themselves are solutions. -/
theorem block_self {src psi : Psi F} : BlockSolution K coord m pv src psi psi ↔ Solution K coord m src psi := by
  have : ∀ c, mix pv c psi psi = psi := by intro c; funext g v a c'; simp [mix]
  unfold BlockSolution Solution
  simp only [this]

/-- There is one block solution, where cells can be ordered upwind to downwind. -/
theorem block_unique (H : Tets m) {src src' old old' psi psi' : Psi F} (h : BlockSolution K coord m pv src old psi)
    (h' : BlockSolution K coord m pv src' old' psi') (hs : Same nA nG m src src') (hold : Same nA nG m old old')
    {log : List (Nat × Nat)} (hc : ∀ a < nA, ∀ c < m.numCells, (a, c) ∈ log)
    (ho : ∀ l1 a c l2, log = l1 ++ (a, c) :: l2 → a < nA ∧ c < m.numCells ∧ ∀ f x c' f', Dot K coord m a c f x →
      K.positive x = false → Across m c f c' f' → (a, c') ∈ l1) : Same nA nG m psi psi' := by
  have key : ∀ l1 l2, log = l1 ++ l2 → ∀ a c, (a, c) ∈ l1 → ∀ (g : Fin nG) v, psi g v a c = psi' g v a c := by
    intro l1
    induction l1 using List.reverseRecOn with
    | nil => simp
    | append_singleton l1 t ih =>
      intro l2 hl a c hac g v
      have ih := ih (t :: l2) (by rw [hl]; simp)
      rcases List.mem_append.1 hac with hac | hac
      · exact ih a c hac g v
      obtain rfl := List.mem_singleton.1 hac
      obtain ⟨ha, hcl, hup⟩ := ho l1 a c l2 (by rw [hl]; simp)
      obtain ⟨p, q, dots, sT, sS, c2f, inc, h1, h2, h3, h4, h5, h6, h7⟩ := h c hcl a ha
      obtain ⟨p', q', dots', sT', sS', c2f', inc', h1', h2', h3', h4', h5', h6', h7'⟩ := h' c hcl a ha
      obtain rfl := cellPoints_unique h1 h1'
      obtain rfl : q = q' := funext fun f => facePoints_unique H (h2 f) (h2' f)
      obtain rfl : dots = dots' := by
        funext f
        have := h3 f
        rw [h3' f, Option.some.injEq] at this
        exact this.symm
      obtain ⟨rfl, rfl⟩ := sigma_unique h4 h4'
      obtain rfl : c2f = c2f' := by
        funext f v
        by_cases hv : v = f
        · rw [(h5 f v).1 hv, (h5' f v).1 hv]
        · obtain ⟨g1, e1, d1, a1, a2, a3, a4⟩ := (h5 f v).2 hv
          obtain ⟨g2, e2, d2, b1, b2, b3, b4⟩ := (h5' f v).2 hv
          obtain rfl := faceOf_unique H a1 b1
          rw [a2, Option.some.injEq] at b2
          rw [a3, Option.some.injEq] at b3
          subst b2 b3
          exact faceNodes_inj H a1 a2 (a4.symm.trans b4)
      obtain rfl : inc = inc' := by
        funext k f g
        obtain ⟨i1, i2⟩ := h6 k f g
        obtain ⟨j1, j2⟩ := h6' k f g
        cases hpos : K.positive (dots f)
        · obtain ⟨i2, i3⟩ := i2 hpos
          obtain ⟨j2, j3⟩ := j2 hpos
          by_cases hex : ∃ c' f', Across m c f c' f'
          · obtain ⟨c', f', hac⟩ := hex
            obtain ⟨w, hw⟩ := onFace_exists H hac k
            rw [i2 c' f' w hac hw, j2 c' f' w hac hw]
            unfold mix
            split
            · exact ih a c' (hup f (dots f) c' f' ⟨q f, p, h2 f, h1, h3 f⟩ hpos hac) g w
            · exact hold g g.2 w a ha c' (across_lt H hac).2
          · push Not at hex
            rw [i3 hex, j3 hex]
        · rw [i1 hpos, j1 hpos]
      rw [h7 v g, h7' v g]
      congr 1
      funext v g
      exact hs g g.2 v a ha c hcl
  intro g hg v a ha c hc'
  exact key log [] (by simp) a c (hc a ha c hc') ⟨g, hg⟩ v

theorem totalOf_unique {phi phi' : Nat → Fin 4 → Nat → F} {src src' : Psi F} (h : TotalOf K coord m phi src)
    (h' : TotalOf K coord m phi' src') (hp : ∀ g < nG, ∀ v, ∀ c < m.numCells, phi g v c = phi' g v c) : Same nA nG m src src' := by
  intro g hg v a ha c hc
  obtain ⟨p, sT, sS, h1, h2, h3⟩ := h c hc
  obtain ⟨p', sT', sS', h1', h2', h3'⟩ := h' c hc
  obtain rfl := cellPoints_unique h1 h1'
  obtain ⟨rfl, rfl⟩ := sigma_unique h2 h2'
  rw [h3 g hg a ha v, h3' g hg a ha v, hp g hg v c hc]

/-- C104: the iterates are determined by the serial mesh and the part of each cell. -/
theorem iterates_unique (H : Tets m) {log : List (Nat × Nat)} (hc : ∀ a < nA, ∀ c < m.numCells, (a, c) ∈ log)
    (ho : ∀ l1 a c l2, log = l1 ++ (a, c) :: l2 → a < nA ∧ c < m.numCells ∧ ∀ f x c' f', Dot K coord m a c f x →
      K.positive x = false → Across m c f c' f' → (a, c') ∈ l1) {k : Nat} {phi phi' : Nat → Fin 4 → Nat → F} {psi psi' : Psi F}
    (h : BlockIterates K coord m pv k phi psi) (h' : BlockIterates K coord m pv k phi' psi') :
    Same nA nG m psi psi' ∧ ∀ g < nG, ∀ v, ∀ c < m.numCells, phi g v c = phi' g v c := by
  induction h generalizing phi' psi' with
  | zero =>
    cases h' with
    | zero => exact ⟨same_refl _, fun _ _ _ _ _ => rfl⟩
  | succ _ ht hs ih =>
    cases h' with
    | succ h2 ht2 hs2 =>
      obtain ⟨e1, e2⟩ := ih h2
      have e := block_unique H hs hs2 (totalOf_unique ht ht2 e2) e1 hc ho
      refine ⟨e, fun g hg v c hc' => ?_⟩
      dsimp only
      congr 1
      funext a
      exact e g hg v a a.2 c hc'

/-- The boundary arrays hold `old` at the faces where it flows in from another part. -/
def FarHolds (K : Kernel F nA nG) (coord : Nat → F) (m : SerialMesh) (P : ParallelMesh) (T : Nat → Mesh) (bound : Nat → Bound F)
    (old : Psi F) : Prop :=
  ∀ a c r i f x c' f' r' i' k w, a < nA → IsCell P r i c → Dot K coord m a c f x → K.positive x = false →
    Across m c f c' f' → IsCell P r' i' c' → r' ≠ r → OnFace m c' f' k w →
    ∀ g : Fin nG, bound r g k a (((T r).getSide i f).getD 0) = old g w a c'

/-- A local sweep on all ranks leaves a block solution. -/
theorem block_of_local (H : Created m pv n P) (L : Loaded val P T) (hD : Started K coord P T D)
    (Q : Linked (K.cfg n T D sched source psi0) (mateOf m P)) {bound : Nat → Bound F} {psi : Nat → Psi F}
    (hloc : LocalEq K n T D source bound psi) {srcS old : Psi F} (hsrc : Holds nA nG n T source srcS)
    (hfar : FarHolds K coord m P T bound old) :
    ∃ psiS, BlockSolution K coord m pv srcS old psiS ∧ Holds nA nG n T psi psiS := by
  have hl : ∀ c, ∃ x : Nat × Nat, c < m.numCells → IsCell P x.1 x.2 c := by
    intro c
    by_cases hc : c < m.numCells
    · obtain ⟨r, i, hi⟩ := isCell_exists H hc
      exact ⟨(r, i), fun _ => hi⟩
    · exact ⟨(0, 0), fun h => absurd h hc⟩
  choose loc hl using hl
  let psiS : Psi F := fun g v a c => psi (loc c).1 g v a (loc c).2
  have hS : ∀ r i c, IsCell P r i c → ∀ g v a, psi r g v a i = psiS g v a c := by
    intro r i c hi g v a
    obtain ⟨e1, e2⟩ := isCell_unique H hi (hl c (isCell_lg H L hi).2.2.2)
    show _ = psi (loc c).1 g v a (loc c).2
    rw [← e1, ← e2]
  refine ⟨psiS, ?_, fun r hr i c hic g _ v a _ => hS r i c (lg_isCell H L hr hic) g v a⟩
  intro c hc a ha
  obtain ⟨r, i, hi⟩ := isCell_exists H hc
  obtain ⟨e1, hr, hil, -⟩ := isCell_lg H L hi
  obtain ⟨p, q, sT, sS, R⟩ := row_of H L hD hi
  refine ⟨p, q, K.omega (D r) a i, sT, sS, faceVertex (T r) i, K.localBound (T r) (D r) a i (psi r) (bound r), R.points, R.faces,
    R.omega a ha, R.sigma, faceVertex_of H L hi, ?_, ?_⟩
  · intro k f g
    unfold Kernel.localBound Kernel.outgoing
    refine ⟨fun e => if_pos e, fun e => ?_⟩
    have e' : ¬ K.positive (K.omega (D r) a i f) = true := by rw [e]; simp
    rw [if_neg e']
    have hIn : (K.cfg n T D sched source psi0).In ⟨r, i, f⟩ := ⟨hr, hil⟩
    constructor
    · intro c' f' w hac hw
      obtain ⟨r', i', hi'⟩ := isCell_exists H (across_lt H.tets hac).2
      have hm : Mates m P ⟨r, i, f⟩ ⟨r', i', f'⟩ := (mates_across hi hi').2 hac
      have hy := (mateOf_iff H).2 hm
      obtain ⟨w', a1, a2, -⟩ := onFace_of H L hi' f' k
      obtain rfl := onFace_unique H.tets hw a2
      unfold mix
      rw [isCell_part H hi', isCell_part H hi]
      by_cases hrr : r' = r
      · subst hrr
        rw [if_pos rfl]
        have hnear := (Q.near _ _ hIn hy rfl).1
        change ((T r').getAdjCell i f).bind toNone = some i' at hnear
        rw [hnear]
        obtain ⟨c1, c2, g1, k1, k2, k3⟩ := id hm
        obtain ⟨w1, n1, n2⟩ := neighbor_vertices H L k1 k2 k3 rfl k
        dsimp only at n1 n2 ⊢
        rw [n1, Option.getD_some]
        rw [a1, Option.some.injEq] at n2
        rw [← n2]
        exact hS _ _ _ hi' g w a
      · rw [if_neg (by simpa using hrr)]
        have hfr := Q.far _ _ hIn hy hrr
        change ((T r).getAdjCell i f).bind toNone = none ∧ ((T r).getAdjRank i f).bind toNone = some r' at hfr
        rw [hfr.1]
        dsimp only
        rw [hfr.2]
        exact hfar a c r i f _ c' f' r' i' k w ha hi ⟨q f, p, R.faces f, R.points, R.omega a ha f⟩ e hac hi' hrr a2 g
    · intro hno
      have hy : mateOf m P ⟨r, i, f⟩ = none := by
        refine mateOf_none.2 fun y hy => ?_
        obtain ⟨e1, e2⟩ := lt_of_exists H L (mates_exists hy).2
        obtain ⟨c', hc'⟩ := isCell_of_lt H L e1 e2
        exact hno c' y.face ((mates_across hi hc').1 hy)
      have hext := Q.ext _ hIn hy
      change ((T r).getAdjCell i f).bind toNone = none ∧ ((T r).getAdjRank i f).bind toNone = none at hext
      rw [hext.1]
      dsimp only
      rw [hext.2]
  · intro v g
    rw [← hS r i c hi g v a, hloc r hr i hil a ha v g, R.volume, R.area, R.sigmaT, Option.getD_some, Option.getD_some, Option.getD_some]
    congr 1
    funext v g
    exact hsrc r hr i c e1 g g.2 v a ha

/-- The scattering source of a scalar flux, on the serial mesh. -/
theorem sourceOf_total (H : Created m pv n P) (L : Loaded val P T) (hD : Started K coord P T D) {phi : Nat → Nat → Fin 4 → Nat → F}
    {phiS : Nat → Fin 4 → Nat → F}
    (h : ∀ r < n, ∀ i c, (T r).getLGCell i = some c → ∀ g < nG, ∀ v, phi r g v i = phiS g v c) :
    ∃ srcS, TotalOf K coord m phiS srcS ∧ Holds nA nG n T (fun r => K.sourceOf (D r) (phi r)) srcS := by
  have hl : ∀ c, ∃ x : Nat × Nat, c < m.numCells → IsCell P x.1 x.2 c := by
    intro c
    by_cases hc : c < m.numCells
    · obtain ⟨r, i, hi⟩ := isCell_exists H hc
      exact ⟨(r, i), fun _ => hi⟩
    · exact ⟨(0, 0), fun h => absurd h hc⟩
  choose loc hl using hl
  refine ⟨fun g v a c => K.sourceOf (D (loc c).1) (phi (loc c).1) g v a (loc c).2, ?_, ?_⟩
  · intro c hc
    have hi := hl c hc
    obtain ⟨e1, hr, -⟩ := isCell_lg H L hi
    obtain ⟨p, q, sT, sS, R⟩ := row_of H L hD hi
    refine ⟨p, sT, sS, R.points, R.sigma, fun g hg a ha v => ?_⟩
    unfold Kernel.sourceOf
    dsimp only
    rw [R.source, R.sigmaS, Option.getD_some, Option.getD_some, h _ hr _ _ e1 g hg v]
  · intro r hr i c hc g _ v a _
    have hi := lg_isCell H L hr hc
    obtain ⟨e1, e2⟩ := isCell_unique H hi (hl c (isCell_lg H L hi).2.2.2)
    dsimp only
    rw [← e1, ← e2]

theorem phi_of_holds {psi : Nat → Psi F} {psiS : Psi F} (h : Holds nA nG n T psi psiS) :
    ∀ r < n, ∀ i c, (T r).getLGCell i = some c → ∀ g < nG, ∀ v, K.phi (psi r) g v i = K.toPhi fun a => psiS g v a c := by
  intro r hr i c hc g hg v
  unfold Kernel.phi
  congr 1
  funext a
  exact h r hr i c hc g hg v a a.2

theorem far_of_exchange (H : Created m pv n P) (hn : n < uintMax) (L : Loaded val P T) (hD : Started K coord P T D)
    (hsort : Sorted K coord m) (hs : ∀ r < n, nA * (T r).nCells < 2 ^ 64) {psi : Nat → Psi F} {bound bound' : Nat → Bound F}
    (hx : K.Exchange n T D psi bound bound') {psiS : Psi F} (h : Holds nA nG n T psi psiS) : FarHolds K coord m P T bound' psiS := by
  intro a c r i f x c' f' r' i' k w ha hi hd hp hac hi' hne hw g
  rw [exchange_value H hn L hD hsort hs hx ha hi hd hp hac hi' hne hw g]
  obtain ⟨e1, hr', -⟩ := isCell_lg H L hi'
  exact h r' hr' i' c' e1 g g.2 w a ha

theorem BlockLoop.iterates (H : Created m pv n P) (hn : n < uintMax) (L : Loaded val P T) (hD : Started K coord P T D)
    (hsort : Sorted K coord m) (hs : ∀ r < n, nA * (T r).nCells < 2 ^ 64) {stop : Stop F} {N iter : Nat}
    {phi : Nat → Nat → Fin 4 → Nat → F} {psi : Nat → Psi F} {bound : Nat → Bound F} {fluxes : List (Nat → Psi F)} {psiEnd : Nat → Psi F}
    (h : K.BlockLoop stop N n T D iter phi psi bound fluxes psiEnd) {k : Nat} {phiS : Nat → Fin 4 → Nat → F} {old : Psi F}
    (hk : BlockIterates K coord m pv k phiS old)
    (hphi : ∀ r < n, ∀ i c, (T r).getLGCell i = some c → ∀ g < nG, ∀ v, phi r g v i = phiS g v c)
    (hfar : FarHolds K coord m P T bound old) :
    ∀ j (hj : j < fluxes.length), ∃ phiS psiS, BlockIterates K coord m pv (k + j + 1) phiS psiS ∧ Holds nA nG n T fluxes[j] psiS := by
  have step : ∀ {phi : Nat → Nat → Fin 4 → Nat → F} {psi psi' : Nat → Psi F} {bound : Nat → Bound F} {k : Nat}
      {phiS : Nat → Fin 4 → Nat → F} {old : Psi F}, K.LocalSwept n T D (fun r => K.sourceOf (D r) (phi r)) psi bound psi' →
      BlockIterates K coord m pv k phiS old →
      (∀ r < n, ∀ i c, (T r).getLGCell i = some c → ∀ g < nG, ∀ v, phi r g v i = phiS g v c) → FarHolds K coord m P T bound old →
      ∃ psiS, BlockIterates K coord m pv (k + 1) (fun g v c => K.toPhi fun a => psiS g v a c) psiS ∧ Holds nA nG n T psi' psiS := by
    intro phi psi psi' bound k phiS old hsw hk hphi hfar
    obtain ⟨srcS, t1, t2⟩ := sourceOf_total H L hD hphi
    have hl := local_eq (m := m) (P := P) (fun sched ht => cfg_linked H hn L hD hsort.consistent ht hs) hsw
    obtain ⟨psiS, b1, b2⟩ := block_of_local H L hD (cfg_linked (source := fun r => K.sourceOf (D r) (phi r)) (psi0 := psi)
      (sched := ⟨1, 1, .tycho, true, fun _ _ _ => 0, bound⟩) H hn L hD hsort.consistent Nat.one_pos hs) hl t2 hfar
    exact ⟨psiS, .succ hk t1 b1, b2⟩
  induction h generalizing k phiS old with
  | limit => intro j hj; simp at hj
  | conv _ hsw _ _ =>
    intro j hj
    obtain rfl : j = 0 := by simpa using hj
    obtain ⟨psiS, h1, h2⟩ := step hsw hk hphi hfar
    exact ⟨_, psiS, h1, h2⟩
  | next _ hsw hx _ _ ih =>
    intro j hj
    obtain ⟨psiS, h1, h2⟩ := step hsw hk hphi hfar
    cases j with
    | zero => exact ⟨_, psiS, h1, h2⟩
    | succ j =>
      obtain ⟨p, q, e1, e2⟩ := ih h1 (phi_of_holds h2) (far_of_exchange H hn L hD hsort hs hx h2) j (by simpa using hj)
      exact ⟨p, q, by rw [show k + (j + 1) + 1 = k + 1 + j + 1 from by omega]; exact e1, by simpa using e2⟩

/-- C104: the flux after iteration `j + 1` is iterate `j + 1` of block Jacobi on the serial mesh, to the last bit. -/
theorem blocks_iterates (H : Created m pv n P) (hn : n < uintMax) (L : Loaded val P T) (hD : Started K coord P T D)
    (hsort : Sorted K coord m) (hs : ∀ r < n, nA * (T r).nCells < 2 ^ 64) {stop : Stop F} {N : Nat} {fluxes : List (Nat → Psi F)}
    {psiEnd : Nat → Psi F} (h : K.Blocks stop N n T D fluxes psiEnd) (j : Nat) (hj : j < fluxes.length) :
    ∃ phiS psiS, BlockIterates K coord m pv (j + 1) phiS psiS ∧ Holds nA nG n T fluxes[j] psiS := by
  have := BlockLoop.iterates H hn L hD hsort hs h .zero (fun _ _ _ _ _ _ _ _ => rfl)
    (fun _ _ _ _ _ _ _ _ _ _ _ _ _ _ _ _ _ _ _ _ _ => rfl) j hj
  rwa [Nat.zero_add] at this

/-- An upwind order of the mesh. -/
theorem order_of (H : Created m pv n P) (hn : n < uintMax) (L : Loaded val P T) (hD : Started K coord P T D)
    (hsort : Sorted K coord m) (hs : ∀ r < n, nA * (T r).nCells < 2 ^ 64) :
    ∃ log : List (Nat × Nat), (∀ a < nA, ∀ c < m.numCells, (a, c) ∈ log) ∧
      ∀ l1 a c l2, log = l1 ++ (a, c) :: l2 → a < nA ∧ c < m.numCells ∧ ∀ f x c' f', Dot K coord m a c f x → K.positive x = false →
        Across m c f c' f' → (a, c') ∈ l1 := by
  obtain ⟨psi', h', -⟩ := sweep_returns H hn L hD hsort hs (fun _ _ _ _ _ => K.zero) (fun _ _ _ _ _ => K.zero)
    ⟨1, 1, .tycho, true, fun _ _ _ => 0, fun _ _ _ _ _ => K.zero⟩ Nat.one_pos Nat.one_pos rfl
  obtain ⟨-, -, -, log, h1, h2⟩ := swept_solution (srcS := fun _ _ _ _ => K.zero) H hn L hD hsort.consistent hs h'
    (fun _ _ _ _ _ _ _ _ _ _ => rfl)
  exact ⟨log, h1, h2⟩

/-- C104: two runs on the same partition have the same bits after the same number of iterations, whatever the threads,
the order of the messages and of the cells of a part, the test and the limit. -/
theorem blocks_repeat (H : Created m pv n P) (hn : n < uintMax) (L : Loaded val P T) (hD : Started K coord P T D)
    (H' : Created m pv n P') (L' : Loaded val' P' T') (hD' : Started K coord P' T' D')
    (hsort : Sorted K coord m) (hs : ∀ r < n, nA * (T r).nCells < 2 ^ 64) (hs' : ∀ r < n, nA * (T' r).nCells < 2 ^ 64)
    {stop stop' : Stop F} {N N' : Nat} {fluxes fluxes' : List (Nat → Psi F)} {psiEnd psiEnd' : Nat → Psi F}
    (h : K.Blocks stop N n T D fluxes psiEnd) (h' : K.Blocks stop' N' n T' D' fluxes' psiEnd') (j : Nat) (hj : j < fluxes.length)
    (hj' : j < fluxes'.length) : ∃ psiS, Holds nA nG n T fluxes[j] psiS ∧ Holds nA nG n T' fluxes'[j] psiS := by
  obtain ⟨log, o1, o2⟩ := order_of H hn L hD hsort hs
  obtain ⟨p, q, e1, e2⟩ := blocks_iterates H hn L hD hsort hs h j hj
  obtain ⟨p', q', e1', e2'⟩ := blocks_iterates H' hn L' hD' hsort hs' h' j hj'
  obtain ⟨u, -⟩ := iterates_unique H.tets o1 o2 e1' e1
  exact ⟨q, e2, holds_same H' L' e2' u⟩

theorem BlockLoop.length (H : Created m pv n P) (hn : n < uintMax) (L : Loaded val P T) (hD : Started K coord P T D)
    (hsort : Sorted K coord m) (hs : ∀ r < n, nA * (T r).nCells < 2 ^ 64) {stop : Stop F} {N iter : Nat}
    {phi phi' : Nat → Nat → Fin 4 → Nat → F} {psi psi' : Nat → Psi F} {bound bound' : Nat → Bound F}
    {fluxes fluxes' : List (Nat → Psi F)} {psiEnd psiEnd' : Nat → Psi F}
    (h : K.BlockLoop stop N n T D iter phi psi bound fluxes psiEnd) (h' : K.BlockLoop stop N n T D iter phi' psi' bound' fluxes' psiEnd')
    (hphi : ∀ r < n, ∀ i < (T r).nCells, ∀ g < nG, ∀ v, phi r g v i = phi' r g v i)
    (hsame : ∀ j (hj : j < fluxes.length) (hj' : j < fluxes'.length), SameOn nA nG n T fluxes[j] fluxes'[j]) :
    fluxes.length = fluxes'.length := by
  have test : ∀ {phi phi' : Nat → Nat → Fin 4 → Nat → F} {q q' : Nat → Psi F},
      (∀ r < n, ∀ i < (T r).nCells, ∀ g < nG, ∀ v, phi r g v i = phi' r g v i) → SameOn nA nG n T q q' →
      stop.metPhi nG n T (fun r => K.phi (q r)) phi = stop.metPhi nG n T (fun r => K.phi (q' r)) phi' ∧
      ∀ r < n, ∀ i < (T r).nCells, ∀ g < nG, ∀ v, K.phi (q r) g v i = K.phi (q' r) g v i := by
    intro phi phi' q q' h1 h2
    have h3 : ∀ r < n, ∀ i < (T r).nCells, ∀ g < nG, ∀ v, K.phi (q r) g v i = K.phi (q' r) g v i := by
      intro r hr i hi g hg v
      unfold Kernel.phi
      congr 1
      funext a
      exact h2 r hr i hi a a.2 v g hg
    refine ⟨?_, h3⟩
    have hp : ∀ r < n, pairs nG (T r).nCells (K.phi (q r)) (phi r) = pairs nG (T r).nCells (K.phi (q' r)) (phi' r) := by
      intro r hr
      unfold pairs
      rw [List.flatMap_def, List.flatMap_def]
      congr 1
      refine List.map_congr_left fun c hc => ?_
      congr 1
      funext v
      refine List.map_congr_left fun g hg => ?_
      rw [h3 r hr c (List.mem_range.1 hc) g (List.mem_range.1 hg) v, h1 r hr c (List.mem_range.1 hc) g (List.mem_range.1 hg) v]
    unfold Stop.metPhi
    dsimp only
    congr 2
    · refine List.map_congr_left fun r hr => ?_
      rw [hp r (List.mem_range.1 hr)]
    · refine List.map_congr_left fun r hr => ?_
      rw [hp r (List.mem_range.1 hr)]
  induction h generalizing phi' psi' bound' fluxes' psiEnd' with
  | limit h =>
    cases h' with
    | limit => rfl
    | conv h2 => exact absurd h2 h
    | next h2 => exact absurd h2 h
  | conv h _ _ hc =>
    cases h' with
    | limit h2 => exact absurd h h2
    | conv => rfl
    | next _ _ _ hc2 _ =>
      have := (test hphi (hsame 0 (by simp) (by simp))).1
      simp only [List.getElem_cons_zero] at this
      rw [hc, hc2] at this
      exact absurd this (by decide)
  | next h _ _ hc _ ih =>
    cases h' with
    | limit h2 => exact absurd h h2
    | conv _ _ _ hc2 =>
      have := (test hphi (hsame 0 (by simp) (by simp))).1
      simp only [List.getElem_cons_zero] at this
      rw [hc, hc2] at this
      exact absurd this (by decide)
    | next _ _ _ _ hr2 =>
      have t := (test hphi (hsame 0 (by simp) (by simp))).2
      simp only [List.getElem_cons_zero] at t
      have := ih hr2 t (fun j hj hj' => hsame (j + 1) (by simpa using hj) (by simpa using hj'))
      simp only [List.length_cons, this]

theorem BlockLoop.last {stop : Stop F} {N iter : Nat} {phi : Nat → Nat → Fin 4 → Nat → F} {psi : Nat → Psi F} {bound : Nat → Bound F}
    {fl : List (Nat → Psi F)} {e : Nat → Psi F} (h : K.BlockLoop stop N n T D iter phi psi bound fl e) : e = fl.getLastD psi := by
  induction h with
  | limit => rfl
  | conv => rfl
  | @next _ _ _ _ psi' _ rest _ _ _ _ _ _ ih =>
    rw [ih]
    cases rest with
    | nil => rfl
    | cons p ps => rfl

/-- C104: the flux left is that of the last iteration. -/
theorem blocks_last {stop : Stop F} {N : Nat} {fluxes : List (Nat → Psi F)} {psiEnd : Nat → Psi F}
    (h : K.Blocks stop N n T D fluxes psiEnd) (hl : 0 < fluxes.length) : psiEnd = fluxes[fluxes.length - 1] := by
  rw [BlockLoop.last h, List.getLastD_eq_getLast?, List.getLast?_eq_getElem?, List.getElem?_eq_getElem (by omega), Option.getD_some]

/-- C104: two runs with the same partition, test and limit make the same number of iterations, and end with the same bits. -/
theorem blocks_deterministic (H : Created m pv n P) (hn : n < uintMax) (L : Loaded val P T) (hD : Started K coord P T D)
    (hsort : Sorted K coord m) (hs : ∀ r < n, nA * (T r).nCells < 2 ^ 64) {stop : Stop F} {N : Nat} {fluxes fluxes' : List (Nat → Psi F)}
    {psiEnd psiEnd' : Nat → Psi F} (h : K.Blocks stop N n T D fluxes psiEnd) (h' : K.Blocks stop N n T D fluxes' psiEnd') :
    fluxes.length = fluxes'.length ∧ SameOn nA nG n T psiEnd psiEnd' := by
  have hsame : ∀ j (hj : j < fluxes.length) (hj' : j < fluxes'.length), SameOn nA nG n T fluxes[j] fluxes'[j] := by
    intro j hj hj' r hr i hi a ha v g hg
    obtain ⟨psiS, e1, e2⟩ := blocks_repeat H hn L hD H L hD hsort hs hs h h' j hj hj'
    obtain ⟨c, hc⟩ := isCell_of_lt H L hr hi
    obtain ⟨e, -⟩ := isCell_lg H L hc
    rw [e1 r hr i c e g hg v a ha, e2 r hr i c e g hg v a ha]
  have hl := BlockLoop.length H hn L hD hsort hs h h' (fun _ _ _ _ _ _ _ => rfl) hsame
  refine ⟨hl, ?_⟩
  rw [BlockLoop.last h, BlockLoop.last h']
  by_cases h0 : fluxes.length = 0
  · have h0' : fluxes'.length = 0 := hl ▸ h0
    rw [List.length_eq_zero_iff.1 h0, List.length_eq_zero_iff.1 h0']
    exact fun _ _ _ _ _ _ _ _ _ => rfl
  · have := hsame (fluxes.length - 1) (by omega) (by omega)
    rw [List.getLastD_eq_getLast?, List.getLastD_eq_getLast?, List.getLast?_eq_getElem?, List.getLast?_eq_getElem?,
      List.getElem?_eq_getElem (by omega), List.getElem?_eq_getElem (by omega), Option.getD_some, Option.getD_some]
    simpa only [hl] using this

theorem block_congr (H : Tets m) {src old old' psi : Psi F} (h : BlockSolution K coord m pv src old psi) (he : Same nA nG m old old') :
    BlockSolution K coord m pv src old' psi := by
  intro c hc a ha
  obtain ⟨p, q, dots, sT, sS, c2f, inc, h1, h2, h3, h4, h5, h6, h7⟩ := h c hc a ha
  refine ⟨p, q, dots, sT, sS, c2f, inc, h1, h2, h3, h4, h5, ?_, h7⟩
  intro k f g
  refine ⟨(h6 k f g).1, fun hp => ⟨fun c' f' w hac hw => ?_, ((h6 k f g).2 hp).2⟩⟩
  rw [((h6 k f g).2 hp).1 c' f' w hac hw]
  unfold mix
  split
  · rfl
  · exact he g g.2 w a ha c' (across_lt H hac).2

/-- C104: an iterate that comes twice in a row is a fixed point of source iteration with the traversal, on any partition. -/
theorem blocks_fixed (H : Created m pv n P) (hn : n < uintMax) (L : Loaded val P T) (hD : Started K coord P T D)
    (H' : Created m pv' n' P') (hn' : n' < uintMax) (L' : Loaded val' P' T') (hD' : Started K coord P' T' D')
    (hsort : Sorted K coord m) (hs : ∀ r < n, nA * (T r).nCells < 2 ^ 64) (hs' : ∀ r < n', nA * (T' r).nCells < 2 ^ 64)
    {stop : Stop F} {N : Nat} {fluxes : List (Nat → Psi F)} {psiEnd : Nat → Psi F} (h : K.Blocks stop N n T D fluxes psiEnd) {j : Nat}
    (hj : j + 1 < fluxes.length) (hsame : SameOn nA nG n T fluxes[j] fluxes[j + 1]) {psiS : Psi F}
    (hS : Holds nA nG n T fluxes[j] psiS) {q q0 q' : Nat → Psi F} (hq : Holds nA nG n' T' q psiS)
    (hsw : K.Swept n' T' D' (fun r => K.totalSource (D' r) (q r)) q0 q') : Holds nA nG n' T' q' psiS := by
  obtain ⟨log, o1, o2⟩ := order_of H hn L hD hsort hs
  obtain ⟨phi1, psi1, e1, f1⟩ := blocks_iterates H hn L hD hsort hs h j (by omega)
  obtain ⟨phi2, psi2, e2, f2⟩ := blocks_iterates H hn L hD hsort hs h (j + 1) hj
  have same_of : ∀ {x y : Psi F}, Holds nA nG n T fluxes[j] x → Holds nA nG n T fluxes[j] y → Same nA nG m x y := by
    intro x y hx hy g hg v a ha c hc
    obtain ⟨r, i, hi⟩ := isCell_exists H hc
    obtain ⟨e, hr, -⟩ := isCell_lg H L hi
    rw [← hx r hr i c e g hg v a ha, hy r hr i c e g hg v a ha]
  have f2' : Holds nA nG n T fluxes[j] psi2 := by
    intro r hr i c hc g hg v a ha
    rw [hsame r hr i (isCell_lg H L (lg_isCell H L hr hc)).2.2.1 a ha v g hg]
    exact f2 r hr i c hc g hg v a ha
  obtain ⟨srcQ, t1, t2⟩ := total_of H' L' hD' hq
  obtain ⟨star, s1, s2, -⟩ := swept_solution H' hn' L' hD' hsort.consistent hs' hsw t2
  refine holds_same H' L' s2 ?_
  cases e2 with
  | @succ _ phiX old src _ hx ht hb =>
    obtain ⟨u1, u2⟩ := iterates_unique H.tets o1 o2 hx e1
    have w1 : Same nA nG m old psi2 := fun g hg v a ha c hc => (u1 g hg v a ha c hc).trans (same_of f1 f2' g hg v a ha c hc)
    have hp : ∀ g < nG, ∀ v, ∀ c < m.numCells, phiX g v c = K.toPhi fun a => psiS g v a c := by
      intro g hg v c hc
      rw [u2 g hg v c hc]
      cases e1 with
      | succ =>
        dsimp only
        congr 1
        funext a
        exact same_of f1 hS g hg v a a.2 c hc
    have hsrc : Same nA nG m srcQ src := totalOf_unique (phi := fun g v c => K.toPhi fun a => psiS g v a c) t1 ht
      (fun g hg v c hc => (hp g hg v c hc).symm)
    have w2 : Solution K coord m src psi2 := block_self.1 (block_congr H.tets hb w1)
    have w3 := solution_unique H.tets s1 w2 hsrc o1 o2
    exact fun g hg v a ha c hc => (w3 g hg v a ha c hc).trans (same_of f2' hS g hg v a ha c hc)

/-- C104: if an iterate is a fixed point of source iteration, for one partition, all iterates after it have its bits. -/
theorem blocks_stay (H : Created m pv n P) (hn : n < uintMax) (L : Loaded val P T) (hD : Started K coord P T D)
    (H' : Created m pv' n' P') (hn' : n' < uintMax) (L' : Loaded val' P' T') (hD' : Started K coord P' T' D')
    (hsort : Sorted K coord m) (hs : ∀ r < n, nA * (T r).nCells < 2 ^ 64) (hs' : ∀ r < n', nA * (T' r).nCells < 2 ^ 64)
    {stop : Stop F} {N : Nat} {fluxes : List (Nat → Psi F)} {psiEnd : Nat → Psi F} (h : K.Blocks stop N n T D fluxes psiEnd) {j : Nat}
    (hj : j < fluxes.length) {psiS : Psi F} (hS : Holds nA nG n T fluxes[j] psiS) {q q0 q' : Nat → Psi F}
    (hq : Holds nA nG n' T' q psiS) (hsw : K.Swept n' T' D' (fun r => K.totalSource (D' r) (q r)) q0 q')
    (hq' : Holds nA nG n' T' q' psiS) : ∀ i (_ : j ≤ i) (hi : i < fluxes.length), Holds nA nG n T fluxes[i] psiS := by
  obtain ⟨log, o1, o2⟩ := order_of H hn L hD hsort hs
  obtain ⟨srcQ, t1, t2⟩ := total_of H' L' hD' hq
  obtain ⟨star, s1, s2, -⟩ := swept_solution H' hn' L' hD' hsort.consistent hs' hsw t2
  have hstar : Same nA nG m star psiS := by
    intro g hg v a ha c hc
    obtain ⟨r, i, hi⟩ := isCell_exists H' hc
    obtain ⟨e, hr, -⟩ := isCell_lg H' L' hi
    rw [← s2 r hr i c e g hg v a ha, hq' r hr i c e g hg v a ha]
  intro i hji
  induction i, hji using Nat.le_induction with
  | base => exact fun _ => hS
  | succ i _ ih =>
    intro hi
    have ih := ih (by omega)
    obtain ⟨phi1, psi1, e1, f1⟩ := blocks_iterates H hn L hD hsort hs h i (by omega)
    obtain ⟨phi2, psi2, e2, f2⟩ := blocks_iterates H hn L hD hsort hs h (i + 1) hi
    have h1S : Same nA nG m psi1 psiS := by
      intro g hg v a ha c hc
      obtain ⟨r, i, hi⟩ := isCell_exists H hc
      obtain ⟨e, hr, -⟩ := isCell_lg H L hi
      rw [← f1 r hr i c e g hg v a ha, ih r hr i c e g hg v a ha]
    refine holds_same H L f2 ?_
    cases e2 with
    | @succ _ phiX old src _ hx ht hb =>
      obtain ⟨u1, u2⟩ := iterates_unique H.tets o1 o2 hx e1
      have hp : ∀ g < nG, ∀ v, ∀ c < m.numCells, phiX g v c = K.toPhi fun a => psiS g v a c := by
        intro g hg v c hc
        rw [u2 g hg v c hc]
        cases e1 with
        | succ =>
          dsimp only
          congr 1
          funext a
          exact h1S g hg v a a.2 c hc
      have hsrc : Same nA nG m src srcQ := totalOf_unique (phi' := fun g v c => K.toPhi fun a => psiS g v a c) ht t1 hp
      have hold : Same nA nG m old star := fun g hg v a ha c hc =>
        ((u1 g hg v a ha c hc).trans (h1S g hg v a ha c hc)).trans (hstar g hg v a ha c hc).symm
      have := block_unique H.tets hb (block_self.2 s1) hsrc hold o1 o2
      exact fun g hg v a ha c hc => (this g hg v a ha c hc).trans (hstar g hg v a ha c hc)

/-- C104: the loop makes at most `N - 1` iterations. -/
theorem blocks_length {stop : Stop F} {N : Nat} {fluxes : List (Nat → Psi F)} {psiEnd : Nat → Psi F}
    (h : K.Blocks stop N n T D fluxes psiEnd) : fluxes.length ≤ N - 1 := by
  have key : ∀ {iter : Nat} {phi : Nat → Nat → Fin 4 → Nat → F} {psi : Nat → Psi F} {bound : Nat → Bound F} {fl : List (Nat → Psi F)}
      {e : Nat → Psi F}, K.BlockLoop stop N n T D iter phi psi bound fl e → fl.length ≤ N - iter := by
    intro iter phi psi bound fl e h
    induction h with
    | limit => simp
    | conv => simp only [List.length_singleton]; omega
    | next _ _ _ _ _ ih => simp only [List.length_cons]; omega
  exact key h

/-- C104: the loop ends before the limit only where the test was met by the scalar fluxes of the last two iterates (zero
before the first), and not where it was met by any before. -/
theorem blocks_tested {stop : Stop F} {N : Nat} {fluxes : List (Nat → Psi F)} {psiEnd : Nat → Psi F}
    (h : K.Blocks stop N n T D fluxes psiEnd) (j : Nat) (hj : j < fluxes.length) :
    let phi : Nat → Nat → Nat → Fin 4 → Nat → F := fun j => if h : 0 < j ∧ j ≤ fluxes.length then fun r => K.phi (fluxes[j - 1] r)
      else fun _ _ _ _ => K.zero
    (j + 1 < fluxes.length → stop.metPhi nG n T (phi (j + 1)) (phi j) = false) ∧
    (j + 1 = fluxes.length → fluxes.length < N - 1 → stop.metPhi nG n T (phi (j + 1)) (phi j) = true) := by
  have key : ∀ {iter : Nat} {phi0 : Nat → Nat → Fin 4 → Nat → F} {psi : Nat → Psi F} {bound : Nat → Bound F} {fl : List (Nat → Psi F)}
      {e : Nat → Psi F}, K.BlockLoop stop N n T D iter phi0 psi bound fl e → ∀ j (hj : j < fl.length),
      (j + 1 < fl.length → stop.metPhi nG n T (fun r => K.phi (fl[j] r))
        (if h : 0 < j then fun r => K.phi (fl[j - 1] r) else phi0) = false) ∧
      (j + 1 = fl.length → fl.length < N - iter → stop.metPhi nG n T (fun r => K.phi (fl[j] r))
        (if h : 0 < j then fun r => K.phi (fl[j - 1] r) else phi0) = true) := by
    intro iter phi0 psi bound fl e h
    induction h with
    | limit => intro j hj; simp at hj
    | conv _ _ _ hc =>
      intro j hj
      obtain rfl : j = 0 := by simpa using hj
      exact ⟨fun h => absurd h (by simp), fun _ _ => hc⟩
    | @next iter _ _ _ psi' _ rest _ _ _ _ hc hr ih =>
      intro j hj
      cases j with
      | zero =>
        refine ⟨fun _ => hc, fun h hl => ?_⟩
        have : rest = [] := by simpa using h.symm
        subst this
        cases hr with
        | limit h => simp only [List.length_singleton] at hl; omega
      | succ j =>
        have := ih j (by simpa using hj)
        simp only [List.length_cons, List.getElem_cons_succ, Nat.succ_pos, dite_true, Nat.add_sub_cancel]
        cases j with
        | zero =>
          simp only [Nat.lt_irrefl, dite_false] at this
          exact ⟨fun h => this.1 (by omega), fun h hl => this.2 (by omega) (by omega)⟩
        | succ j =>
          simp only [Nat.succ_pos, dite_true, Nat.add_sub_cancel] at this
          exact ⟨fun h => this.1 (by omega), fun h hl => this.2 (by omega) (by omega)⟩
  intro phi
  have := key h j hj
  have e1 : phi (j + 1) = fun r => K.phi (fluxes[j] r) := dif_pos ⟨Nat.succ_pos j, hj⟩
  have e0 : phi j = if h : 0 < j then fun r => K.phi (fluxes[j - 1] r) else fun _ _ _ _ => K.zero := by
    by_cases h0 : 0 < j
    · rw [dif_pos h0]
      exact dif_pos ⟨h0, by omega⟩
    · rw [dif_neg h0]
      exact dif_neg (fun h => h0 h.1)
  rw [e1, e0]
  exact this

theorem metPhi_pairs {stop : Stop F} {new old : Nat → Nat → Fin 4 → Nat → F} :
    stop.metPhi nG n T new old =
      (let parts := (List.range n).map fun r => pairs nG (T r).nCells (new r) (old r)
      stop.below (stop.gsum (parts.map stop.error)) (stop.gsum (parts.map stop.norm))) := by
  simp only [Stop.metPhi, List.map_map, Function.comp_def]

/-- C104: with a test that is met only when no entry has changed, a loop that ends before its limit after two iterations or more
ends with the scalar flux of the iteration before. -/
theorem blocks_strict {stop : Stop F} (hstrict : Strict stop) {N : Nat} {fluxes : List (Nat → Psi F)} {psiEnd : Nat → Psi F}
    (h : K.Blocks stop N n T D fluxes psiEnd) {j : Nat} (hj : j + 2 = fluxes.length) (hN : fluxes.length < N - 1) :
    ∀ r < n, ∀ i < (T r).nCells, ∀ g < nG, ∀ v,
      (K.toPhi fun a => fluxes[j + 1] r g v a i) = K.toPhi fun a => fluxes[j] r g v a i := by
  intro r hr i hi g hg v
  have := (blocks_tested h (j + 1) (by omega)).2 (by omega) hN
  rw [metPhi_pairs] at this
  dsimp only at this
  rw [dif_pos ⟨by omega, by omega⟩, dif_pos ⟨by omega, by omega⟩] at this
  exact hstrict _ this _ (List.mem_map.2 ⟨r, List.mem_range.2 hr, rfl⟩)
    (K.phi (fluxes[j + 1] r) g v i, K.phi (fluxes[j] r) g v i) (by
      simp only [pairs, List.mem_flatMap, List.mem_map, List.mem_range, List.mem_finRange, true_and]
      exact ⟨i, hi, v, g, hg, rfl⟩)

/-- C104: with a test that is met when no entry has changed, the loop ends at the first iteration that leaves the scalar flux. -/
theorem blocks_ends {stop : Stop F} (hlen : Lenient stop) {N : Nat} {fluxes : List (Nat → Psi F)} {psiEnd : Nat → Psi F}
    (h : K.Blocks stop N n T D fluxes psiEnd) {j : Nat} (hj : j + 1 < fluxes.length)
    (hsame : ∀ r < n, ∀ i < (T r).nCells, ∀ g < nG, ∀ v,
      (K.toPhi fun a => fluxes[j + 1] r g v a i) = K.toPhi fun a => fluxes[j] r g v a i) : fluxes.length = j + 2 := by
  by_contra hne
  have := (blocks_tested h (j + 1) (by omega)).1 (by omega)
  rw [metPhi_pairs] at this
  dsimp only at this
  rw [dif_pos ⟨by omega, by omega⟩, dif_pos ⟨by omega, by omega⟩] at this
  rw [hlen] at this
  · exact absurd this (by decide)
  · intro p hp q hq
    obtain ⟨r, hr, rfl⟩ := List.mem_map.1 hp
    simp only [pairs, List.mem_flatMap, List.mem_map, List.mem_range, List.mem_finRange, true_and] at hq
    obtain ⟨i, hi, v, g, hg, rfl⟩ := hq
    exact hsame r (List.mem_range.1 hr) i hi g hg v

/-- C104: there is a run, whatever the answers of the test. -/
theorem blocks_returns (H : Created m pv n P) (hn : n < uintMax) (L : Loaded val P T) (hD : Started K coord P T D)
    (hsort : Sorted K coord m) (hs : ∀ r < n, nA * (T r).nCells < 2 ^ 64) (stop : Stop F) (N : Nat) :
    ∃ fluxes psiEnd, K.Blocks stop N n T D fluxes psiEnd := by
  have key : ∀ k iter phi psi bound, N - iter = k → ∃ fluxes psiEnd, K.BlockLoop stop N n T D iter phi psi bound fluxes psiEnd := by
    intro k
    induction k with
    | zero => intro iter phi psi bound h; exact ⟨_, _, .limit (by omega)⟩
    | succ k ih =>
      intro iter phi psi bound h
      obtain ⟨psi', h1⟩ := local_returns H hn L hD hsort hs (fun r => K.sourceOf (D r) (phi r)) psi bound
        ⟨1, 1, .tycho, true, fun _ _ _ => 0, bound⟩ Nat.one_pos
      obtain ⟨bound', h2⟩ : ∃ b, K.Exchange n T D psi' bound b := ⟨fun r => ((adjRanks (T r)).flatMap fun q =>
        K.packets (T q) (D q) (psi' q) r).foldl (unpack (T r)) (bound r), fun r _ => ⟨_, List.Perm.refl _, rfl⟩⟩
      cases hm : stop.metPhi nG n T (fun r => K.phi (psi' r)) phi
      · obtain ⟨f, e, hr⟩ := ih (iter + 1) (fun r => K.phi (psi' r)) psi' bound' (by omega)
        exact ⟨_, _, .next (by omega) h1 h2 hm hr⟩
      · exact ⟨_, _, .conv (by omega) h1 h2 hm⟩
  exact key _ 1 _ _ _ rfl

end Verif.Floating
