import Verif.Storage.Lemmas
/-!
# Storage properties (C01, C02)

Specification style: an array type is lawful when reads/writes through index tuples behave as a
finite function from in-range tuples to values.  The specification (`Lawful`) only mentions reads,
writes and the linear view, not the index formula.
-/
namespace Verif.Storage

/-- Independent specification of "one private slot per tuple": `dom` are the legal tuples of the
array value `s`.
* every legal tuple can be read, no other tuple can;
* a write through a legal tuple succeeds, keeps the set of legal tuples, is read back through that
  tuple and leaves the reading of every other tuple unchanged; any other write fails. -/
structure Lawful {S ι α : Type} (ok : S → Prop) (dom : S → ι → Prop)
    (get : S → ι → Option α) (set : S → ι → α → Option S) : Prop where
  get_dom : ∀ s, ok s → ∀ t, dom s t → ∃ x, get s t = some x
  get_ndom : ∀ s, ok s → ∀ t, ¬ dom s t → get s t = none
  set_dom : ∀ s, ok s → ∀ t, dom s t → ∀ x, ∃ s', set s t x = some s' ∧ ok s' ∧
      (∀ u, dom s' u ↔ dom s u) ∧ get s' t = some x ∧ ∀ u, u ≠ t → get s' u = get s u
  set_ndom : ∀ s, ok s → ∀ t, ¬ dom s t → ∀ x, set s t x = none

/-! ## C01: flux arrays -/

/-- Arrays as built by the constructors: allocation of `size()` entries and no 64-bit overflow. -/
def PsiData.Ok {α : Type} (p : PsiData α) : Prop :=
  p.ng * p.nv * p.na * p.nc < W ∧ p.data.length = p.ng * p.nv * p.na * p.nc

def PsiBoundData.Ok {α : Type} (p : PsiBoundData α) : Prop :=
  p.ng * p.nv * p.na * p.ns < W ∧ p.data.length = p.ng * p.nv * p.na * p.ns

def PhiData.Ok {α : Type} (p : PhiData α) : Prop :=
  p.ng * p.nv * p.nc < W ∧ p.data.length = p.ng * p.nv * p.nc

variable {α : Type}

/-- The constructor gives a lawful array in which every tuple reads 0. -/
theorem psiData_new (zero : α) (ng nv na nc : Nat) (h : ng * nv * na * nc < W) :
    (PsiData.new zero ng nv na nc).Ok ∧
    ∀ g v a c, g < ng → v < nv → a < na → c < nc →
      (PsiData.new zero ng nv na nc).get g v a c = some zero := by
  refine ⟨⟨h, by simp [PsiData.new, wmul4_eq h]⟩, ?_⟩
  intro g v a c hg hv ha hc
  obtain ⟨e, l⟩ := idx4 h hg hv ha hc
  simp [PsiData.get, PsiData.index, PsiData.new, hg, hv, ha, hc, e, rd, wmul4_eq h, l]

example : (3 : Nat) * 4 * 8 * 10 < W := by decide

/-- C01 for the angular flux: private slot per (group, vertex, angle, cell), frame law. -/
theorem psiData_lawful :
    Lawful (S := PsiData α) (ι := Nat × Nat × Nat × Nat) (α := α) PsiData.Ok
      (fun p t => t.1 < p.ng ∧ t.2.1 < p.nv ∧ t.2.2.1 < p.na ∧ t.2.2.2 < p.nc)
      (fun p t => p.get t.1 t.2.1 t.2.2.1 t.2.2.2)
      (fun p t x => p.set t.1 t.2.1 t.2.2.1 t.2.2.2 x) where
  get_dom := by
    rintro p ⟨hW, hl⟩ ⟨g, v, a, c⟩ ⟨hg, hv, ha, hc⟩
    simp only at hg hv ha hc
    obtain ⟨e, l⟩ := idx4 hW hg hv ha hc
    refine ⟨p.data[((c * p.na + a) * p.nv + v) * p.ng + g]'(by omega), ?_⟩
    simp [PsiData.get, PsiData.index, hg, hv, ha, hc, e, rd]
  get_ndom := by
    rintro p _ ⟨g, v, a, c⟩ h
    simp only at h
    simp [PsiData.get, PsiData.index, h]
  set_dom := by
    rintro p ⟨hW, hl⟩ ⟨g, v, a, c⟩ ⟨hg, hv, ha, hc⟩ x
    simp only at hg hv ha hc
    obtain ⟨e, l⟩ := idx4 hW hg hv ha hc
    refine ⟨{ p with data := p.data.set (((c * p.na + a) * p.nv + v) * p.ng + g) x }, ?_, ?_, ?_, ?_, ?_⟩
    · simp [PsiData.set, PsiData.index, hg, hv, ha, hc, e, wr, hl, l]
    · exact ⟨hW, by simp [hl]⟩
    · intro u; rfl
    · have := rd_set_self (l := p.data) (i := ((c * p.na + a) * p.nv + v) * p.ng + g) (by omega) x
      simp [PsiData.get, PsiData.index, hg, hv, ha, hc, e, this]
    · rintro ⟨g', v', a', c'⟩ hne
      by_cases hd : g' < p.ng ∧ v' < p.nv ∧ a' < p.na ∧ c' < p.nc
      · obtain ⟨hg', hv', ha', hc'⟩ := hd
        obtain ⟨e', l'⟩ := idx4 hW hg' hv' ha' hc'
        have hx : ((c * p.na + a) * p.nv + v) * p.ng + g ≠ ((c' * p.na + a') * p.nv + v') * p.ng + g' := by
          intro he
          obtain ⟨h1, h2, h3, h4⟩ := idx4_inj hg hv ha hg' hv' ha' he
          exact hne (by simp [h1, h2, h3, h4])
        simp [PsiData.get, PsiData.index, hg', hv', ha', hc', e', rd_set_ne hx]
      · simp [PsiData.get, PsiData.index, hd]
  set_ndom := by
    rintro p _ ⟨g, v, a, c⟩ h x
    simp only at h
    simp [PsiData.set, PsiData.index, h]

example : ∃ p : PsiData Nat, p.Ok ∧ 1 < p.ng ∧ 3 < p.nv ∧ 5 < p.na ∧ 2 < p.nc :=
  ⟨PsiData.new 0 2 4 8 3, (psiData_new 0 2 4 8 3 (by decide)).1, by decide, by decide, by decide, by decide⟩

/-- C01: the linear view `p[i]`, `i < size()`, enumerates exactly the tuples: each linear position
is some tuple's slot and each tuple's slot is a linear position. So loops over `[0,size())` visit
every (group, vertex, angle, cell) exactly once. -/
theorem psiData_linear (p : PsiData α) (h : p.Ok) :
    p.size = p.ng * p.nv * p.na * p.nc ∧
    (∀ i, i < p.size → ∃ g v a c, g < p.ng ∧ v < p.nv ∧ a < p.na ∧ c < p.nc ∧
      p.index g v a c = some i ∧ p.getLin i = p.get g v a c) ∧
    (∀ g v a c i, p.index g v a c = some i → i < p.size) ∧
    (∀ g v a c g' v' a' c' i, p.index g v a c = some i → p.index g' v' a' c' = some i →
      g = g' ∧ v = v' ∧ a = a' ∧ c = c') := by
  obtain ⟨hW, hl⟩ := h
  have hs : p.size = p.ng * p.nv * p.na * p.nc := wmul4_eq hW
  have key : ∀ {g v a c i}, p.index g v a c = some i →
      (g < p.ng ∧ v < p.nv ∧ a < p.na ∧ c < p.nc) ∧ i = ((c * p.na + a) * p.nv + v) * p.ng + g ∧
      i < p.size := by
    intro g v a c i hi
    by_cases hd : g < p.ng ∧ v < p.nv ∧ a < p.na ∧ c < p.nc
    · obtain ⟨e, l⟩ := idx4 hW hd.1 hd.2.1 hd.2.2.1 hd.2.2.2
      simp only [PsiData.index, if_pos hd, e, Option.some.injEq] at hi
      subst hi
      exact ⟨hd, rfl, by rw [hs]; exact l⟩
    · simp [PsiData.index, hd] at hi
  refine ⟨hs, ?_, fun g v a c i hi => (key hi).2.2, ?_⟩
  · intro i hi
    have hi' := hi
    rw [hs] at hi'
    obtain ⟨g, v, a, c, hg, hv, ha, hc, rfl⟩ := idx4_surj hi'
    obtain ⟨e, l⟩ := idx4 hW hg hv ha hc
    have hx : p.index g v a c = some (((c * p.na + a) * p.nv + v) * p.ng + g) := by
      simp [PsiData.index, hg, hv, ha, hc, e]
    exact ⟨g, v, a, c, hg, hv, ha, hc, hx, by simp [PsiData.get, hx, PsiData.getLin, hi]⟩
  · intro g v a c g' v' a' c' i h1 h2
    obtain ⟨d1, e1, _⟩ := key h1
    obtain ⟨d2, e2, _⟩ := key h2
    exact idx4_inj d1.1 d1.2.1 d1.2.2.1 d2.1 d2.2.1 d2.2.2.1 (e1 ▸ e2)

example : (PsiData.new (0 : Nat) 2 4 8 3).Ok := (psiData_new 0 2 4 8 3 (by decide)).1

/-- `setToValue` makes every tuple read the value. -/
theorem psiData_setToValue (p : PsiData α) (h : p.Ok) (x : α) :
    (p.setToValue x).Ok ∧ ∀ g v a c, g < p.ng → v < p.nv → a < p.na → c < p.nc →
      (p.setToValue x).get g v a c = some x := by
  obtain ⟨hW, hl⟩ := h
  refine ⟨⟨hW, by simp [PsiData.setToValue, hl]⟩, ?_⟩
  intro g v a c hg hv ha hc
  obtain ⟨e, l⟩ := idx4 hW hg hv ha hc
  have : ((c * p.na + a) * p.nv + v) * p.ng + g < p.data.length := by omega
  simp [PsiData.get, PsiData.index, PsiData.setToValue, hg, hv, ha, hc, e, rd, this]

example : (PsiData.new (0 : Nat) 1 4 8 6).Ok := (psiData_new 0 1 4 8 6 (by decide)).1

/-- The no-overflow hypothesis is needed: with 2^62 cells, 4 vertices, 1 angle and 1 group the
64-bit size is 0, nothing is allocated, and the legal tuple (0,0,0,0) is out of bounds. -/
theorem psiData_overflow_witness :
    (PsiData.new (0 : Nat) 1 4 1 (2 ^ 62)).size = 0 ∧
    (PsiData.new (0 : Nat) 1 4 1 (2 ^ 62)).index 0 0 0 0 = some 0 ∧
    (PsiData.new (0 : Nat) 1 4 1 (2 ^ 62)).get 0 0 0 0 = none := by
  have h : wmul (wmul (wmul 1 4) 1) (2 ^ 62) = 0 := by decide
  refine ⟨h, by decide, ?_⟩
  simp [PsiData.get, PsiData.index, PsiData.new, h, rd]

/-! ### boundary flux -/

theorem psiBoundData_new (zero : α) (ng nv na ns : Nat) (h : ng * nv * na * ns < W) :
    (PsiBoundData.new zero ng nv na ns).Ok ∧
    ∀ g v a s, g < ng → v < nv → a < na → s < ns →
      (PsiBoundData.new zero ng nv na ns).get g v a s = some zero := by
  refine ⟨⟨h, by simp [PsiBoundData.new, wmul4_eq h]⟩, ?_⟩
  intro g v a c hg hv ha hc
  obtain ⟨e, l⟩ := idx4 h hg hv ha hc
  simp [PsiBoundData.get, PsiBoundData.index, PsiBoundData.new, hg, hv, ha, hc, e, rd, wmul4_eq h, l]

example : (2 : Nat) * 3 * 8 * 12 < W := by decide

/-- C01 for the partition-boundary flux. -/
theorem psiBoundData_lawful :
    Lawful (S := PsiBoundData α) (ι := Nat × Nat × Nat × Nat) (α := α) PsiBoundData.Ok
      (fun p t => t.1 < p.ng ∧ t.2.1 < p.nv ∧ t.2.2.1 < p.na ∧ t.2.2.2 < p.ns)
      (fun p t => p.get t.1 t.2.1 t.2.2.1 t.2.2.2)
      (fun p t x => p.set t.1 t.2.1 t.2.2.1 t.2.2.2 x) where
  get_dom := by
    rintro p ⟨hW, hl⟩ ⟨g, v, a, c⟩ ⟨hg, hv, ha, hc⟩
    simp only at hg hv ha hc
    obtain ⟨e, l⟩ := idx4 hW hg hv ha hc
    refine ⟨p.data[((c * p.na + a) * p.nv + v) * p.ng + g]'(by omega), ?_⟩
    simp [PsiBoundData.get, PsiBoundData.index, hg, hv, ha, hc, e, rd]
  get_ndom := by
    rintro p _ ⟨g, v, a, c⟩ h
    simp only at h
    simp [PsiBoundData.get, PsiBoundData.index, h]
  set_dom := by
    rintro p ⟨hW, hl⟩ ⟨g, v, a, c⟩ ⟨hg, hv, ha, hc⟩ x
    simp only at hg hv ha hc
    obtain ⟨e, l⟩ := idx4 hW hg hv ha hc
    refine ⟨{ p with data := p.data.set (((c * p.na + a) * p.nv + v) * p.ng + g) x }, ?_, ?_, ?_, ?_, ?_⟩
    · simp [PsiBoundData.set, PsiBoundData.index, hg, hv, ha, hc, e, wr, hl, l]
    · exact ⟨hW, by simp [hl]⟩
    · intro u; rfl
    · have := rd_set_self (l := p.data) (i := ((c * p.na + a) * p.nv + v) * p.ng + g) (by omega) x
      simp [PsiBoundData.get, PsiBoundData.index, hg, hv, ha, hc, e, this]
    · rintro ⟨g', v', a', c'⟩ hne
      by_cases hd : g' < p.ng ∧ v' < p.nv ∧ a' < p.na ∧ c' < p.ns
      · obtain ⟨hg', hv', ha', hc'⟩ := hd
        obtain ⟨e', l'⟩ := idx4 hW hg' hv' ha' hc'
        have hx : ((c * p.na + a) * p.nv + v) * p.ng + g ≠ ((c' * p.na + a') * p.nv + v') * p.ng + g' := by
          intro he
          obtain ⟨h1, h2, h3, h4⟩ := idx4_inj hg hv ha hg' hv' ha' he
          exact hne (by simp [h1, h2, h3, h4])
        simp [PsiBoundData.get, PsiBoundData.index, hg', hv', ha', hc', e', rd_set_ne hx]
      · simp [PsiBoundData.get, PsiBoundData.index, hd]
  set_ndom := by
    rintro p _ ⟨g, v, a, c⟩ h x
    simp only at h
    simp [PsiBoundData.set, PsiBoundData.index, h]

example : ∃ p : PsiBoundData Nat, p.Ok ∧ 1 < p.ng ∧ 2 < p.nv ∧ 5 < p.na ∧ 2 < p.ns :=
  ⟨PsiBoundData.new 0 2 3 8 3, (psiBoundData_new 0 2 3 8 3 (by decide)).1,
   by decide, by decide, by decide, by decide⟩

/-- Linear view of the boundary flux. -/
theorem psiBoundData_linear (p : PsiBoundData α) (h : p.Ok) :
    p.size = p.ng * p.nv * p.na * p.ns ∧
    (∀ i, i < p.size → ∃ g v a s, g < p.ng ∧ v < p.nv ∧ a < p.na ∧ s < p.ns ∧
      p.index g v a s = some i ∧ p.getLin i = p.get g v a s) ∧
    (∀ g v a s i, p.index g v a s = some i → i < p.size) ∧
    (∀ g v a s g' v' a' s' i, p.index g v a s = some i → p.index g' v' a' s' = some i →
      g = g' ∧ v = v' ∧ a = a' ∧ s = s') := by
  obtain ⟨hW, hl⟩ := h
  have hs : p.size = p.ng * p.nv * p.na * p.ns := wmul4_eq hW
  have key : ∀ {g v a c i}, p.index g v a c = some i →
      (g < p.ng ∧ v < p.nv ∧ a < p.na ∧ c < p.ns) ∧ i = ((c * p.na + a) * p.nv + v) * p.ng + g ∧
      i < p.size := by
    intro g v a c i hi
    by_cases hd : g < p.ng ∧ v < p.nv ∧ a < p.na ∧ c < p.ns
    · obtain ⟨e, l⟩ := idx4 hW hd.1 hd.2.1 hd.2.2.1 hd.2.2.2
      simp only [PsiBoundData.index, if_pos hd, e, Option.some.injEq] at hi
      subst hi
      exact ⟨hd, rfl, by rw [hs]; exact l⟩
    · simp [PsiBoundData.index, hd] at hi
  refine ⟨hs, ?_, fun g v a c i hi => (key hi).2.2, ?_⟩
  · intro i hi
    have hi' := hi
    rw [hs] at hi'
    obtain ⟨g, v, a, c, hg, hv, ha, hc, rfl⟩ := idx4_surj hi'
    obtain ⟨e, l⟩ := idx4 hW hg hv ha hc
    have hx : p.index g v a c = some (((c * p.na + a) * p.nv + v) * p.ng + g) := by
      simp [PsiBoundData.index, hg, hv, ha, hc, e]
    exact ⟨g, v, a, c, hg, hv, ha, hc, hx, by simp [PsiBoundData.get, hx, PsiBoundData.getLin, hi]⟩
  · intro g v a c g' v' a' c' i h1 h2
    obtain ⟨d1, e1, _⟩ := key h1
    obtain ⟨d2, e2, _⟩ := key h2
    exact idx4_inj d1.1 d1.2.1 d1.2.2.1 d2.1 d2.2.1 d2.2.2.1 (e1 ▸ e2)

example : (PsiBoundData.new (0 : Nat) 2 3 8 12).Ok := (psiBoundData_new 0 2 3 8 12 (by decide)).1

/-- `setToValue` on the boundary flux. -/
theorem psiBoundData_setToValue (p : PsiBoundData α) (h : p.Ok) (x : α) :
    (p.setToValue x).Ok ∧ ∀ g v a s, g < p.ng → v < p.nv → a < p.na → s < p.ns →
      (p.setToValue x).get g v a s = some x := by
  obtain ⟨hW, hl⟩ := h
  refine ⟨⟨hW, by simp [PsiBoundData.setToValue, hl]⟩, ?_⟩
  intro g v a c hg hv ha hc
  obtain ⟨e, l⟩ := idx4 hW hg hv ha hc
  have : ((c * p.na + a) * p.nv + v) * p.ng + g < p.data.length := by omega
  simp [PsiBoundData.get, PsiBoundData.index, PsiBoundData.setToValue, hg, hv, ha, hc, e, rd, this]

example : (PsiBoundData.new (0 : Nat) 1 3 8 6).Ok := (psiBoundData_new 0 1 3 8 6 (by decide)).1

/-! ### scalar flux -/

theorem phiData_new (zero : α) (ng nv nc : Nat) (h : ng * nv * nc < W) :
    (PhiData.new zero ng nv nc).Ok ∧
    ∀ g v c, g < ng → v < nv → c < nc → (PhiData.new zero ng nv nc).get g v c = some zero := by
  refine ⟨⟨h, by simp [PhiData.new, wmul3_eq h]⟩, ?_⟩
  intro g v c hg hv hc
  obtain ⟨e, l⟩ := idx3 h hg hv hc
  simp [PhiData.get, PhiData.index, PhiData.new, hg, hv, hc, e, rd, wmul3_eq h, l]

example : (2 : Nat) * 4 * 12 < W := by decide

/-- C01 for the scalar flux. -/
theorem phiData_lawful :
    Lawful (S := PhiData α) (ι := Nat × Nat × Nat) (α := α) PhiData.Ok
      (fun p t => t.1 < p.ng ∧ t.2.1 < p.nv ∧ t.2.2 < p.nc)
      (fun p t => p.get t.1 t.2.1 t.2.2) (fun p t x => p.set t.1 t.2.1 t.2.2 x) where
  get_dom := by
    rintro p ⟨hW, hl⟩ ⟨g, v, c⟩ ⟨hg, hv, hc⟩
    simp only at hg hv hc
    obtain ⟨e, l⟩ := idx3 hW hg hv hc
    refine ⟨p.data[(c * p.nv + v) * p.ng + g]'(by omega), ?_⟩
    simp [PhiData.get, PhiData.index, hg, hv, hc, e, rd]
  get_ndom := by
    rintro p _ ⟨g, v, c⟩ h
    simp only at h
    simp [PhiData.get, PhiData.index, h]
  set_dom := by
    rintro p ⟨hW, hl⟩ ⟨g, v, c⟩ ⟨hg, hv, hc⟩ x
    simp only at hg hv hc
    obtain ⟨e, l⟩ := idx3 hW hg hv hc
    refine ⟨{ p with data := p.data.set ((c * p.nv + v) * p.ng + g) x }, ?_, ?_, ?_, ?_, ?_⟩
    · simp [PhiData.set, PhiData.index, hg, hv, hc, e, wr, hl, l]
    · exact ⟨hW, by simp [hl]⟩
    · intro u; rfl
    · have := rd_set_self (l := p.data) (i := (c * p.nv + v) * p.ng + g) (by omega) x
      simp [PhiData.get, PhiData.index, hg, hv, hc, e, this]
    · rintro ⟨g', v', c'⟩ hne
      by_cases hd : g' < p.ng ∧ v' < p.nv ∧ c' < p.nc
      · obtain ⟨hg', hv', hc'⟩ := hd
        obtain ⟨e', l'⟩ := idx3 hW hg' hv' hc'
        have hx : (c * p.nv + v) * p.ng + g ≠ (c' * p.nv + v') * p.ng + g' := by
          intro he
          obtain ⟨h1, h2, h3⟩ := idx3_inj hg hv hg' hv' he
          exact hne (by simp [h1, h2, h3])
        simp [PhiData.get, PhiData.index, hg', hv', hc', e', rd_set_ne hx]
      · simp [PhiData.get, PhiData.index, hd]
  set_ndom := by
    rintro p _ ⟨g, v, c⟩ h x
    simp only at h
    simp [PhiData.set, PhiData.index, h]

example : ∃ p : PhiData Nat, p.Ok ∧ 1 < p.ng ∧ 3 < p.nv ∧ 2 < p.nc :=
  ⟨PhiData.new 0 2 4 3, (phiData_new 0 2 4 3 (by decide)).1, by decide, by decide, by decide⟩

/-- Linear view of the scalar flux. -/
theorem phiData_linear (p : PhiData α) (h : p.Ok) :
    p.size = p.ng * p.nv * p.nc ∧
    (∀ i, i < p.size → ∃ g v c, g < p.ng ∧ v < p.nv ∧ c < p.nc ∧
      p.index g v c = some i ∧ p.getLin i = p.get g v c) ∧
    (∀ g v c i, p.index g v c = some i → i < p.size) ∧
    (∀ g v c g' v' c' i, p.index g v c = some i → p.index g' v' c' = some i →
      g = g' ∧ v = v' ∧ c = c') := by
  obtain ⟨hW, hl⟩ := h
  have hs : p.size = p.ng * p.nv * p.nc := wmul3_eq hW
  have key : ∀ {g v c i}, p.index g v c = some i →
      (g < p.ng ∧ v < p.nv ∧ c < p.nc) ∧ i = (c * p.nv + v) * p.ng + g ∧ i < p.size := by
    intro g v c i hi
    by_cases hd : g < p.ng ∧ v < p.nv ∧ c < p.nc
    · obtain ⟨e, l⟩ := idx3 hW hd.1 hd.2.1 hd.2.2
      simp only [PhiData.index, if_pos hd, e, Option.some.injEq] at hi
      subst hi
      exact ⟨hd, rfl, by rw [hs]; exact l⟩
    · simp [PhiData.index, hd] at hi
  refine ⟨hs, ?_, fun g v c i hi => (key hi).2.2, ?_⟩
  · intro i hi
    have hi' := hi
    rw [hs] at hi'
    obtain ⟨g, v, c, hg, hv, hc, rfl⟩ := idx3_surj hi'
    obtain ⟨e, l⟩ := idx3 hW hg hv hc
    have hx : p.index g v c = some ((c * p.nv + v) * p.ng + g) := by
      simp [PhiData.index, hg, hv, hc, e]
    exact ⟨g, v, c, hg, hv, hc, hx, by simp [PhiData.get, hx, PhiData.getLin, hi]⟩
  · intro g v c g' v' c' i h1 h2
    obtain ⟨d1, e1, _⟩ := key h1
    obtain ⟨d2, e2, _⟩ := key h2
    exact idx3_inj d1.1 d1.2.1 d2.1 d2.2.1 (e1 ▸ e2)

example : (PhiData.new (0 : Nat) 2 4 12).Ok := (phiData_new 0 2 4 12 (by decide)).1

/-- `setToValue` on the scalar flux. -/
theorem phiData_setToValue (p : PhiData α) (h : p.Ok) (x : α) :
    (p.setToValue x).Ok ∧ ∀ g v c, g < p.ng → v < p.nv → c < p.nc →
      (p.setToValue x).get g v c = some x := by
  obtain ⟨hW, hl⟩ := h
  refine ⟨⟨hW, by simp [PhiData.setToValue, hl]⟩, ?_⟩
  intro g v c hg hv hc
  obtain ⟨e, l⟩ := idx3 hW hg hv hc
  have : (c * p.nv + v) * p.ng + g < p.data.length := by omega
  simp [PhiData.get, PhiData.index, PhiData.setToValue, hg, hv, hc, e, rd, this]

example : (PhiData.new (0 : Nat) 1 4 6).Ok := (phiData_new 0 1 4 6 (by decide)).1

/-! ## C02: dense matrices -/

def Mat1.Ok (m : Mat1 α) : Prop := m.data.length = m.xlen
def Mat2.Ok (m : Mat2 α) : Prop := m.xlen * m.ylen < W ∧ m.data.length = m.xlen * m.ylen
def Mat3.Ok (m : Mat3 α) : Prop :=
  m.xlen * m.ylen * m.zlen < W ∧ m.data.length = m.xlen * m.ylen * m.zlen

theorem mat1_new (m : Mat1 α) (d : α) (x : Nat) :
    (Mat1.new d x).Ok ∧ (∀ i, i < x → (Mat1.new d x).get i = some d) ∧
    m.resize d x = Mat1.new d x := by
  refine ⟨by simp [Mat1.Ok, Mat1.new], ?_, rfl⟩
  intro i hi
  simp [Mat1.get, Mat1.index, Mat1.new, hi, rd]

/-- C02 for 1-index arrays. -/
theorem mat1_lawful :
    Lawful (S := Mat1 α) (ι := Nat) (α := α) Mat1.Ok (fun m i => i < m.xlen) Mat1.get Mat1.set where
  get_dom := by
    rintro m h i hi
    simp only [Mat1.Ok] at h
    exact ⟨m.data[i]'(by omega), by simp [Mat1.get, Mat1.index, hi, rd]⟩
  get_ndom := by rintro m _ i hi; simp [Mat1.get, Mat1.index, hi]
  set_dom := by
    rintro m h i hi x
    simp only [Mat1.Ok] at h
    refine ⟨{ m with data := m.data.set i x }, ?_, ?_, fun u => Iff.rfl, ?_, ?_⟩
    · simp [Mat1.set, Mat1.index, hi, wr, h]
    · simp [Mat1.Ok, h]
    · simp [Mat1.get, Mat1.index, hi, rd, h]
    · intro u hu
      by_cases hd : u < m.xlen
      · simp [Mat1.get, Mat1.index, hd, rd_set_ne (Ne.symm hu)]
      · simp [Mat1.get, Mat1.index, hd]
  set_ndom := by rintro m _ i hi x; simp [Mat1.set, Mat1.index, hi]

example : ∃ m : Mat1 Nat, m.Ok ∧ 3 < m.xlen := ⟨Mat1.new 0 5, rfl, by decide⟩

theorem mat2_new (m : Mat2 α) (d : α) (x y : Nat) (h : x * y < W) :
    (Mat2.new d x y).Ok ∧ (∀ i j, i < x → j < y → (Mat2.new d x y).get i j = some d) ∧
    m.resize d x y = Mat2.new d x y := by
  refine ⟨⟨h, by simp [Mat2.new, wmul_eq h]⟩, ?_, rfl⟩
  intro i j hi hj
  have h' : y * x < W := by rw [Nat.mul_comm]; exact h
  obtain ⟨e, l⟩ := wdigit hj hi h'
  rw [Nat.mul_comm y x] at l
  simp [Mat2.get, Mat2.index, Mat2.new, hi, hj, e, rd, wmul_eq h, l]

example : (10 : Nat) * 32 < W := by decide

/-- C02 for 2-index arrays. -/
theorem mat2_lawful :
    Lawful (S := Mat2 α) (ι := Nat × Nat) (α := α) Mat2.Ok
      (fun m t => t.1 < m.xlen ∧ t.2 < m.ylen)
      (fun m t => m.get t.1 t.2) (fun m t x => m.set t.1 t.2 x) where
  get_dom := by
    rintro m ⟨hW, hl⟩ ⟨i, j⟩ ⟨hi, hj⟩
    simp only at hi hj
    obtain ⟨e, l⟩ := wdigit hj hi (by rw [Nat.mul_comm]; exact hW)
    rw [Nat.mul_comm m.ylen] at l
    exact ⟨m.data[j * m.xlen + i]'(by omega), by simp [Mat2.get, Mat2.index, hi, hj, e, rd]⟩
  get_ndom := by rintro m _ ⟨i, j⟩ h; simp only at h; simp [Mat2.get, Mat2.index, h]
  set_dom := by
    rintro m ⟨hW, hl⟩ ⟨i, j⟩ ⟨hi, hj⟩ x
    simp only at hi hj
    have hW' : m.ylen * m.xlen < W := by rw [Nat.mul_comm]; exact hW
    obtain ⟨e, l⟩ := wdigit hj hi hW'
    rw [Nat.mul_comm m.ylen] at l
    refine ⟨{ m with data := m.data.set (j * m.xlen + i) x }, ?_, ⟨hW, by simp [hl]⟩,
      fun u => Iff.rfl, ?_, ?_⟩
    · simp [Mat2.set, Mat2.index, hi, hj, e, wr, hl, l]
    · have := rd_set_self (l := m.data) (i := j * m.xlen + i) (by omega) x
      simp [Mat2.get, Mat2.index, hi, hj, e, this]
    · rintro ⟨i', j'⟩ hne
      by_cases hd : i' < m.xlen ∧ j' < m.ylen
      · obtain ⟨hi', hj'⟩ := hd
        obtain ⟨e', l'⟩ := wdigit hj' hi' hW'
        have hx : j * m.xlen + i ≠ j' * m.xlen + i' := by
          intro he
          obtain ⟨h1, h2⟩ := digit_inj hi hi' he
          exact hne (by simp [h1, h2])
        simp [Mat2.get, Mat2.index, hi', hj', e', rd_set_ne hx]
      · simp [Mat2.get, Mat2.index, hd]
  set_ndom := by rintro m _ ⟨i, j⟩ h x; simp only at h; simp [Mat2.set, Mat2.index, h]

example : ∃ m : Mat2 Nat, m.Ok ∧ 3 < m.xlen ∧ 4 < m.ylen :=
  ⟨Mat2.new 0 5 7, (mat2_new (Mat2.new 0 0 0) 0 5 7 (by decide)).1, by decide, by decide⟩

/-- `setAll` on a 2-index array. -/
theorem mat2_setAll (m : Mat2 α) (h : m.Ok) (x : α) :
    (m.setAll x).Ok ∧ ∀ i j, i < m.xlen → j < m.ylen → (m.setAll x).get i j = some x := by
  obtain ⟨hW, hl⟩ := h
  refine ⟨⟨hW, by simp [Mat2.setAll, hl]⟩, ?_⟩
  intro i j hi hj
  obtain ⟨e, l⟩ := wdigit hj hi (by rw [Nat.mul_comm]; exact hW)
  rw [Nat.mul_comm m.ylen] at l
  have : j * m.xlen + i < m.data.length := by omega
  simp [Mat2.get, Mat2.index, Mat2.setAll, hi, hj, e, rd, this]

example : (Mat2.new (0 : Nat) 5 7).Ok := (mat2_new (Mat2.new 0 0 0) 0 5 7 (by decide)).1

/-- `setData` copies the raw buffer in storage order: entry (i,j) is buffer entry `j*xlen+i`. -/
theorem mat2_setData (m : Mat2 α) (h : m.Ok) (src : List α) (hs : m.xlen * m.ylen ≤ src.length) :
    ∃ m', m.setData src = some m' ∧ m'.Ok ∧
      ∀ i j, i < m.xlen → j < m.ylen → m'.get i j = src[j * m.xlen + i]? := by
  obtain ⟨hW, hl⟩ := h
  have hz : m.size = m.xlen * m.ylen := wmul_eq hW
  refine ⟨{ m with data := src.take m.size }, by simp [Mat2.setData, hz, hs], ⟨hW, ?_⟩, ?_⟩
  · simp [hz, hs]
  · intro i j hi hj
    obtain ⟨e, l⟩ := wdigit hj hi (by rw [Nat.mul_comm]; exact hW)
    rw [Nat.mul_comm m.ylen] at l
    simp [Mat2.get, Mat2.index, hi, hj, e, rd, hz, l]

example : (Mat2.new (0 : Nat) 2 3).Ok ∧ 2 * 3 ≤ [10, 11, 12, 13, 14, 15].length :=
  ⟨(mat2_new (Mat2.new 0 0 0) 0 2 3 (by decide)).1, by decide⟩

theorem mat3_new (m : Mat3 α) (d : α) (x y z : Nat) (h : x * y * z < W) :
    (Mat3.new d x y z).Ok ∧
    (∀ i j k, i < x → j < y → k < z → (Mat3.new d x y z).get i j k = some d) ∧
    m.resize d x y z = Mat3.new d x y z := by
  refine ⟨⟨h, by simp [Mat3.new, wmul3_eq h]⟩, ?_, rfl⟩
  intro i j k hi hj hk
  obtain ⟨e, l⟩ := idx3 h hi hj hk
  simp [Mat3.get, Mat3.index, Mat3.new, hi, hj, hk, e, rd, wmul3_eq h, l]

example : (10 : Nat) * 32 * 4 < W := by decide

/-- C02 for 3-index arrays. -/
theorem mat3_lawful :
    Lawful (S := Mat3 α) (ι := Nat × Nat × Nat) (α := α) Mat3.Ok
      (fun m t => t.1 < m.xlen ∧ t.2.1 < m.ylen ∧ t.2.2 < m.zlen)
      (fun m t => m.get t.1 t.2.1 t.2.2) (fun m t x => m.set t.1 t.2.1 t.2.2 x) where
  get_dom := by
    rintro m ⟨hW, hl⟩ ⟨i, j, k⟩ ⟨hi, hj, hk⟩
    simp only at hi hj hk
    obtain ⟨e, l⟩ := idx3 hW hi hj hk
    exact ⟨m.data[(k * m.ylen + j) * m.xlen + i]'(by omega),
      by simp [Mat3.get, Mat3.index, hi, hj, hk, e, rd]⟩
  get_ndom := by rintro m _ ⟨i, j, k⟩ h; simp only at h; simp [Mat3.get, Mat3.index, h]
  set_dom := by
    rintro m ⟨hW, hl⟩ ⟨i, j, k⟩ ⟨hi, hj, hk⟩ x
    simp only at hi hj hk
    obtain ⟨e, l⟩ := idx3 hW hi hj hk
    refine ⟨{ m with data := m.data.set ((k * m.ylen + j) * m.xlen + i) x }, ?_, ⟨hW, by simp [hl]⟩,
      fun u => Iff.rfl, ?_, ?_⟩
    · simp [Mat3.set, Mat3.index, hi, hj, hk, e, wr, hl, l]
    · have := rd_set_self (l := m.data) (i := (k * m.ylen + j) * m.xlen + i) (by omega) x
      simp [Mat3.get, Mat3.index, hi, hj, hk, e, this]
    · rintro ⟨i', j', k'⟩ hne
      by_cases hd : i' < m.xlen ∧ j' < m.ylen ∧ k' < m.zlen
      · obtain ⟨hi', hj', hk'⟩ := hd
        obtain ⟨e', l'⟩ := idx3 hW hi' hj' hk'
        have hx : (k * m.ylen + j) * m.xlen + i ≠ (k' * m.ylen + j') * m.xlen + i' := by
          intro he
          obtain ⟨h1, h2, h3⟩ := idx3_inj hi hj hi' hj' he
          exact hne (by simp [h1, h2, h3])
        simp [Mat3.get, Mat3.index, hi', hj', hk', e', rd_set_ne hx]
      · simp [Mat3.get, Mat3.index, hd]
  set_ndom := by rintro m _ ⟨i, j, k⟩ h x; simp only at h; simp [Mat3.set, Mat3.index, h]

example : ∃ m : Mat3 Nat, m.Ok ∧ 3 < m.xlen ∧ 4 < m.ylen ∧ 1 < m.zlen :=
  ⟨Mat3.new 0 5 7 2, (mat3_new (Mat3.new 0 0 0 0) 0 5 7 2 (by decide)).1,
   by decide, by decide, by decide⟩

/-- Linear `operator[]` on 2-index arrays ranges over exactly the legal pairs. -/
theorem mat2_linear (m : Mat2 α) (h : m.Ok) :
    m.size = m.xlen * m.ylen ∧
    (∀ n, n < m.size → ∃ i j, i < m.xlen ∧ j < m.ylen ∧ m.index i j = some n) ∧
    (∀ i j n, m.index i j = some n → n < m.size) := by
  obtain ⟨hW, hl⟩ := h
  have hs : m.size = m.xlen * m.ylen := wmul_eq hW
  have hW' : m.ylen * m.xlen < W := by rw [Nat.mul_comm]; exact hW
  refine ⟨hs, ?_, ?_⟩
  · intro n hn
    rw [hs, Nat.mul_comm] at hn
    obtain ⟨j, i, hj, hi, rfl⟩ := digit_surj hn
    exact ⟨i, j, hi, hj, by simp [Mat2.index, hi, hj, (wdigit hj hi hW').1]⟩
  · intro i j n hn
    by_cases hd : i < m.xlen ∧ j < m.ylen
    · obtain ⟨e, l⟩ := wdigit hd.2 hd.1 hW'
      simp only [Mat2.index, if_pos hd, e, Option.some.injEq] at hn
      rw [hs, Nat.mul_comm]; omega
    · simp [Mat2.index, hd] at hn

example : (Mat2.new (0 : Nat) 5 7).Ok := (mat2_new (Mat2.new 0 0 0) 0 5 7 (by decide)).1

/-- Linear `operator[]` on 3-index arrays ranges over exactly the legal triples. -/
theorem mat3_linear (m : Mat3 α) (h : m.Ok) :
    m.size = m.xlen * m.ylen * m.zlen ∧
    (∀ n, n < m.size → ∃ i j k, i < m.xlen ∧ j < m.ylen ∧ k < m.zlen ∧ m.index i j k = some n) ∧
    (∀ i j k n, m.index i j k = some n → n < m.size) := by
  obtain ⟨hW, hl⟩ := h
  have hs : m.size = m.xlen * m.ylen * m.zlen := wmul3_eq hW
  refine ⟨hs, ?_, ?_⟩
  · intro n hn
    rw [hs] at hn
    obtain ⟨i, j, k, hi, hj, hk, rfl⟩ := idx3_surj hn
    exact ⟨i, j, k, hi, hj, hk, by simp [Mat3.index, hi, hj, hk, (idx3 hW hi hj hk).1]⟩
  · intro i j k n hn
    by_cases hd : i < m.xlen ∧ j < m.ylen ∧ k < m.zlen
    · obtain ⟨e, l⟩ := idx3 hW hd.1 hd.2.1 hd.2.2
      simp only [Mat3.index, if_pos hd, e, Option.some.injEq] at hn
      omega
    · simp [Mat3.index, hd] at hn

example : (Mat3.new (0 : Nat) 5 7 2).Ok := (mat3_new (Mat3.new 0 0 0 0) 0 5 7 2 (by decide)).1

end Verif.Storage
