import Verif.Storage.Model
/-! Helper lemmas: mixed-radix arithmetic without overflow. -/
namespace Verif.Storage

theorem wmul_eq {a b : Nat} (h : a * b < W) : wmul a b = a * b := Nat.mod_eq_of_lt h
theorem wadd_eq {a b : Nat} (h : a + b < W) : wadd a b = a + b := Nat.mod_eq_of_lt h

/-- one digit: `hi < m`, `lo < n` gives `hi*n+lo < m*n` -/
theorem digit_lt {hi m lo n : Nat} (h1 : hi < m) (h2 : lo < n) : hi * n + lo < m * n := by
  have : hi * n + n ≤ m * n := by
    have := Nat.mul_le_mul_right n (Nat.succ_le_of_lt h1)
    simpa [Nat.succ_mul] using this
  omega

theorem digit_inj {hi hi' lo lo' n : Nat} (h1 : lo < n) (h2 : lo' < n)
    (h : hi * n + lo = hi' * n + lo') : hi = hi' ∧ lo = lo' := by
  have e1 : (hi * n + lo) / n = hi := by
    rw [Nat.mul_comm, Nat.mul_add_div (by omega), Nat.div_eq_of_lt h1, Nat.add_zero]
  have e2 : (hi' * n + lo') / n = hi' := by
    rw [Nat.mul_comm, Nat.mul_add_div (by omega), Nat.div_eq_of_lt h2, Nat.add_zero]
  have : hi = hi' := by rw [← e1, ← e2, h]
  subst this
  exact ⟨rfl, by omega⟩

theorem digit_surj {k m n : Nat} (h : k < m * n) :
    ∃ hi lo, hi < m ∧ lo < n ∧ k = hi * n + lo := by
  have hn : 0 < n := by
    rcases Nat.eq_zero_or_pos n with h0 | h0
    · simp [h0] at h
    · exact h0
  refine ⟨k / n, k % n, ?_, Nat.mod_lt _ hn, ?_⟩
  · exact Nat.div_lt_of_lt_mul (by rw [Nat.mul_comm]; exact h)
  · rw [Nat.mul_comm]; exact (Nat.div_add_mod k n).symm

theorem wdigit {hi m lo n : Nat} (h1 : hi < m) (h2 : lo < n) (hW : m * n < W) :
    wadd (wmul hi n) lo = hi * n + lo ∧ hi * n + lo < m * n := by
  have h := digit_lt h1 h2
  have a : wmul hi n = hi * n := wmul_eq (by omega)
  rw [a]
  exact ⟨wadd_eq (by omega), h⟩

/-- A factor of a product below `W` is below `W` provided the other one is positive. -/
theorem factor_lt {a b : Nat} (h : a * b < W) (hb : 0 < b) : a < W :=
  Nat.lt_of_le_of_lt (Nat.le_mul_of_pos_right a hb) h

theorem wmul3_eq {a b c : Nat} (h : a * b * c < W) : wmul (wmul a b) c = a * b * c := by
  rcases Nat.eq_zero_or_pos c with h0 | h0
  · subst h0; simp [wmul]
  · have : a * b < W := factor_lt h h0
    rw [wmul_eq this, wmul_eq h]

theorem wmul4_eq {a b c d : Nat} (h : a * b * c * d < W) :
    wmul (wmul (wmul a b) c) d = a * b * c * d := by
  rcases Nat.eq_zero_or_pos d with h0 | h0
  · subst h0; simp [wmul]
  · have : a * b * c < W := factor_lt h h0
    rw [wmul3_eq this, wmul_eq h]

variable {α : Type}

theorem wr_spec {l : List α} {i : Nat} (h : i < l.length) (x : α) :
    wr l i x = some (l.set i x) := by simp [wr, h]

theorem rd_set_self {l : List α} {i : Nat} (h : i < l.length) (x : α) :
    rd (l.set i x) i = some x := by simp [rd, h]

theorem rd_set_ne {l : List α} {i j : Nat} (h : i ≠ j) (x : α) :
    rd (l.set i x) j = rd l j := by simp [rd, h]

/-! index functions, value and bound, no overflow -/

theorem idx4 {ng nv na nc g v a c : Nat} (hW : ng * nv * na * nc < W)
    (hg : g < ng) (hv : v < nv) (ha : a < na) (hc : c < nc) :
    wadd (wmul (wadd (wmul (wadd (wmul c na) a) nv) v) ng) g = ((c * na + a) * nv + v) * ng + g
    ∧ ((c * na + a) * nv + v) * ng + g < ng * nv * na * nc := by
  have hW' : nc * na * nv * ng < W := by
    have : nc * na * nv * ng = ng * nv * na * nc := by
      rw [Nat.mul_comm (nc * na * nv) ng, Nat.mul_comm (nc * na) nv, Nat.mul_comm nc na]
      simp [Nat.mul_assoc]
    omega
  have e : ng * nv * na * nc = nc * na * nv * ng := by
    rw [Nat.mul_comm (nc * na * nv) ng, Nat.mul_comm (nc * na) nv, Nat.mul_comm nc na]
    simp [Nat.mul_assoc]
  have w2 : nc * na * nv < W := factor_lt hW' (by omega)
  have w1 : nc * na < W := factor_lt w2 (by omega)
  obtain ⟨e1, l1⟩ := wdigit hc ha w1
  rw [e1]
  obtain ⟨e2, l2⟩ := wdigit l1 hv w2
  rw [e2]
  obtain ⟨e3, l3⟩ := wdigit l2 hg hW'
  rw [e3, e]
  exact ⟨rfl, l3⟩

theorem idx4_inj {ng nv na g v a c g' v' a' c' : Nat}
    (hg : g < ng) (hv : v < nv) (ha : a < na) (hg' : g' < ng) (hv' : v' < nv) (ha' : a' < na)
    (h : ((c * na + a) * nv + v) * ng + g = ((c' * na + a') * nv + v') * ng + g') :
    g = g' ∧ v = v' ∧ a = a' ∧ c = c' := by
  obtain ⟨h1, e1⟩ := digit_inj hg hg' h
  obtain ⟨h2, e2⟩ := digit_inj hv hv' h1
  obtain ⟨h3, e3⟩ := digit_inj ha ha' h2
  exact ⟨e1, e2, e3, h3⟩

theorem idx4_surj {ng nv na nc k : Nat} (h : k < ng * nv * na * nc) :
    ∃ g v a c, g < ng ∧ v < nv ∧ a < na ∧ c < nc ∧ k = ((c * na + a) * nv + v) * ng + g := by
  have e : ng * nv * na * nc = nc * na * nv * ng := by
    rw [Nat.mul_comm (nc * na * nv) ng, Nat.mul_comm (nc * na) nv, Nat.mul_comm nc na]
    simp [Nat.mul_assoc]
  rw [e] at h
  obtain ⟨x, g, hx, hg, rfl⟩ := digit_surj h
  obtain ⟨y, v, hy, hv, rfl⟩ := digit_surj hx
  obtain ⟨c, a, hc, ha, rfl⟩ := digit_surj hy
  exact ⟨g, v, a, c, hg, hv, ha, hc, rfl⟩

theorem idx3 {nx ny nz i j k : Nat} (hW : nx * ny * nz < W)
    (hi : i < nx) (hj : j < ny) (hk : k < nz) :
    wadd (wmul (wadd (wmul k ny) j) nx) i = (k * ny + j) * nx + i
    ∧ (k * ny + j) * nx + i < nx * ny * nz := by
  have e : nx * ny * nz = nz * ny * nx := by
    rw [Nat.mul_comm (nz * ny) nx, Nat.mul_comm nz ny]; simp [Nat.mul_assoc]
  rw [e] at hW ⊢
  have w1 : nz * ny < W := factor_lt hW (by omega)
  obtain ⟨e1, l1⟩ := wdigit hk hj w1
  rw [e1]
  obtain ⟨e2, l2⟩ := wdigit l1 hi hW
  exact ⟨e2, l2⟩

theorem idx3_inj {nx ny i j k i' j' k' : Nat}
    (hi : i < nx) (hj : j < ny) (hi' : i' < nx) (hj' : j' < ny)
    (h : (k * ny + j) * nx + i = (k' * ny + j') * nx + i') : i = i' ∧ j = j' ∧ k = k' := by
  obtain ⟨h1, e1⟩ := digit_inj hi hi' h
  obtain ⟨h2, e2⟩ := digit_inj hj hj' h1
  exact ⟨e1, e2, h2⟩

theorem idx3_surj {nx ny nz n : Nat} (h : n < nx * ny * nz) :
    ∃ i j k, i < nx ∧ j < ny ∧ k < nz ∧ n = (k * ny + j) * nx + i := by
  have e : nx * ny * nz = nz * ny * nx := by
    rw [Nat.mul_comm (nz * ny) nx, Nat.mul_comm nz ny]; simp [Nat.mul_assoc]
  rw [e] at h
  obtain ⟨x, i, hx, hi, rfl⟩ := digit_surj h
  obtain ⟨k, j, hk, hj, rfl⟩ := digit_surj hx
  exact ⟨i, j, k, hi, hj, hk, rfl⟩

end Verif.Storage
