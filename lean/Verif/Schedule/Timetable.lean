import Verif.Schedule.SweepProps
import Verif.Partition.Props

/-!
# The schedules of `Sweeper::Sweeper` are a timetable
-/
set_option linter.unusedSectionVars false
set_option linter.unusedVariables false

namespace Verif.Schedule
open Classical List
open Verif.Traverse

section
variable {G : Graph} {mate : Loc → Option Loc} {prio : Nat → Nat → Nat → Nat} {s : State}

theorem procs_ok (h : Reached G prio s) (r : Nat) :
    (∀ l ∈ s.sendProcs r, l.Nodup ∧ ∀ q ∈ l, q < G.nRanks) ∧
    (∀ l ∈ s.recvProcs r, l.Nodup ∧ ∀ q ∈ l, q < G.nRanks) := by
  have hN : (G.neighbors r).Nodup := List.nodup_range.filter _
  have hlt : ∀ q ∈ G.neighbors r, q < G.nRanks := fun q hq => (mem_neighbors.1 hq).1
  induction h with
  | init => simp [Graph.init]
  | step s s' _ hs ih =>
    cases hs with
    | mk w d _ _ =>
      simp only [Graph.after, List.mem_append, List.mem_singleton]
      constructor
      · rintro l (hl | rfl)
        · exact ih.1 l hl
        · exact ⟨hN.filter _, fun q hq => hlt q (List.mem_of_mem_filter hq)⟩
      · rintro l (hl | rfl)
        · exact ih.2 l hl
        · exact ⟨hN.filter _, fun q hq => hlt q (List.mem_of_mem_filter hq)⟩

theorem getD_mem {α : Type} {L : List (List α)} {k : Nat} {x : α} (h : x ∈ L.getD k []) :
    ∃ l, L[k]? = some l ∧ x ∈ l ∧ L.getD k [] = l := by
  rcases Nat.lt_or_ge k L.length with hk | hk
  · rw [List.getD_eq_getElem _ _ hk] at h ⊢
    exact ⟨_, List.getElem?_eq_getElem hk, h, rfl⟩
  · rw [List.getD_eq_default _ _ hk] at h
    simp at h

theorem flatten_unique {α : Type} {L : List (List α)} (h : L.flatten.Nodup) {k i k' i' : Nat} {w : α}
    (h1 : (L.getD k [])[i]? = some w) (h2 : (L.getD k' [])[i']? = some w) : k = k' ∧ i = i' := by
  obtain ⟨hn, hp⟩ := List.nodup_flatten.1 h
  obtain ⟨l, hl, hm, he⟩ := getD_mem (List.mem_of_getElem? h1)
  obtain ⟨l', hl', hm', he'⟩ := getD_mem (List.mem_of_getElem? h2)
  obtain ⟨hk, hkl⟩ := List.getElem?_eq_some_iff.1 hl
  obtain ⟨hk', hkl'⟩ := List.getElem?_eq_some_iff.1 hl'
  have hkk : k = k' := by
    by_contra hne
    rw [List.pairwise_iff_getElem] at hp
    rcases Nat.lt_or_gt_of_ne hne with hlt | hlt
    · exact hp k k' hk hk' hlt (by rw [hkl]; exact hm) (by rw [hkl']; exact hm')
    · exact hp k' k hk' hk hlt (by rw [hkl']; exact hm') (by rw [hkl]; exact hm)
  subst hkk
  refine ⟨rfl, ?_⟩
  obtain ⟨hi, hiw⟩ := List.getElem?_eq_some_iff.1 h1
  obtain ⟨hi', hiw'⟩ := List.getElem?_eq_some_iff.1 h2
  have hnl : (L.getD k []).Nodup := by rw [he]; exact hn l (List.mem_of_getElem? hl)
  exact (hnl.getElem_inj_iff).1 (hiw.trans hiw'.symm)

end

theorem groupAngles_iff {n k : Nat} (hk : 0 < k) {a : Nat} :
    (∃ g < k, a ∈ Verif.Partition.groupAngles n k g) ↔ a < n := by
  have := (Verif.Partition.angleGroup_cover n k hk).1
  rw [← List.mem_range, ← this, List.mem_flatMap]
  simp only [List.mem_range]

theorem groupAngles_nodup {n k g : Nat} : (Verif.Partition.groupAngles n k g).Nodup := by
  unfold Verif.Partition.groupAngles
  refine List.Nodup.map ?_ List.nodup_range
  intro x y h
  simp only at h
  omega

variable {D B : Type} {S : Core D B} {mate : Loc → Option Loc} {G : Nat → Graph}
  {prio : Nat → Nat → Nat → Nat → Nat}

/-- The schedule of group `g` is one that `calcOrdering` makes of the graph `G g`
(src/Sweeper.cc:320-350), which follows the faces between cells as the sweep does. -/
structure Core.Follows (S : Core D B) (mate : Loc → Option Loc) (G : Nat → Graph)
    (prio : Nat → Nat → Nat → Nat → Nat) : Prop where
  forward : S.cfg.direction = .forward
  groups : 0 < S.nAngleGroups
  sched : ∀ g < S.nAngleGroups, Ordering (G g) (prio g) (S.sched g)
  nRanks : ∀ g, (G g).nRanks = S.cfg.nRanks
  mesh : ∀ g, (G g).mesh = S.cfg.mesh
  angles : ∀ g, (G g).angles = Verif.Partition.groupAngles S.cfg.nAngles S.nAngleGroups g
  joined : ∀ g < S.nAngleGroups, Joined (G g) mate
  wait : ∀ g < S.nAngleGroups, ∀ x y i a, S.cfg.In x → mate x = some y → (G g).angles[i]? = some a →
    ((G g).wait x.rank i x.cell x.face = true ↔ ¬ (S.cfg.mesh x.rank).outgoing a x.cell x.face = true)
  free : ∀ g < S.nAngleGroups, ∀ x y i a, S.cfg.In x → mate x = some y → (G g).angles[i]? = some a →
    ((G g).free x.rank i x.cell x.face = true ↔ (S.cfg.mesh x.rank).outgoing a x.cell x.face = true)

/-- The schedules of the constructor meet the needs of the sweep. -/
theorem follows_timetable (B : S.Follows mate G prio) (L : Linked S.cfg mate)
    (hd : S.cfg.doComm = true) (hac : Verif.Traverse.Acyclic S.cfg mate) :
    Timetable S mate (Verif.Partition.groupAngles S.cfg.nAngles S.nAngleGroups) := by
  have hbelow : ∀ g < S.nAngleGroups, ∀ a ∈ Verif.Partition.groupAngles S.cfg.nAngles S.nAngleGroups g,
      a < S.cfg.nAngles := fun g hg a ha => (groupAngles_iff B.groups).1 ⟨g, hg, ha⟩
  have J := B.joined
  have hin : ∀ g x, (G g).In x ↔ S.cfg.In x := fun g x => by
    unfold Graph.In Cfg.In
    rw [B.nRanks, B.mesh]
  have hidx : ∀ g, ∀ a ∈ Verif.Partition.groupAngles S.cfg.nAngles S.nAngleGroups g, ∃ i : Nat,
      (G g).angles[i]? = some a ∧ i < (G g).angles.length ∧ (G g).angles.getD i 0 = a := by
    intro g a ha
    rw [← B.angles g] at ha
    obtain ⟨i, hi⟩ := List.mem_iff_getElem?.1 ha
    refine ⟨i, hi, (List.getElem?_eq_some_iff.1 hi).1, ?_⟩
    rw [List.getD_eq_getElem?_getD, hi]
    rfl
  have hacg : ∀ g < S.nAngleGroups, Acyclic (G g) mate := by
    intro g hg i hi t ht
    have hget : (G g).angles[i]? = some ((G g).angles.getD i 0) := by
      rw [List.getD_eq_getElem _ _ hi, List.getElem?_eq_getElem hi]
    have hmem : (G g).angles.getD i 0 ∈ Verif.Partition.groupAngles S.cfg.nAngles S.nAngleGroups g := by
      rw [← B.angles g]
      exact List.mem_of_getElem? hget
    refine hac ((G g).angles.getD i 0) (hbelow g hg _ hmem) t (Relation.TransGen.mono ?_ _ _ ht)
    rintro t t' ⟨x, y, hx, hm, hw, h1, h2⟩
    refine ⟨x, y, (hin g x).1 hx, hm, ⟨?_, y, hm, Or.inl hd⟩, h1, h2⟩
    have := (B.wait g hg x y i _ ((hin g x).1 hx) hm hget).1 hw
    unfold Cfg.inDir
    rw [B.forward]
    simpa using this
  have hcount : ∀ g < S.nAngleGroups, ∀ r < S.cfg.nRanks, ∀ c < (S.cfg.mesh r).nCells,
      ∀ a ∈ Verif.Partition.groupAngles S.cfg.nAngles S.nAngleGroups g,
      ((S.sched g).workOrders r).flatten.count ⟨c, a⟩ = 1 := by
    intro g hg r hr c hc a ha
    obtain ⟨i, -, hi, he⟩ := hidx g a ha
    rw [← he]
    exact schedule_complete (J g hg) (hacg g hg) (B.sched g hg) (by rw [B.nRanks]; exact hr) hi
      (by rw [B.mesh]; exact hc)
  have honce := fun g (hg : g < S.nAngleGroups) r (hr : r < S.cfg.nRanks) =>
    schedule_once (J g hg) (B.sched g hg).1 (r := r) (by rw [B.nRanks]; exact hr)
  have hnd := fun g (hg : g < S.nAngleGroups) r (hr : r < S.cfg.nRanks) => (honce g hg r hr).1
  have hlen : ∀ g < S.nAngleGroups, ∀ r < S.cfg.nRanks, ∀ q < S.cfg.nRanks,
      ((S.sched g).workOrders r).length = ((S.sched g).workOrders q).length := by
    intro g hg r hr q hq
    exact (schedule_size (J g hg) (B.sched g hg).1).2 r (by rw [B.nRanks]; exact hr) q (by rw [B.nRanks]; exact hq)
  have hmatch := fun g (hg : g < S.nAngleGroups) p (hp : p < S.cfg.nRanks) q (hq : q < S.cfg.nRanks) =>
    plan_matches (J g hg) (B.sched g hg).1 (p := p) (q := q) (by rw [B.nRanks]; exact hp) (by rw [B.nRanks]; exact hq)
  have hcase : ∀ g, g < S.nAngleGroups → ∀ p, p < S.cfg.nRanks → ∀ q, q < S.cfg.nRanks → ∀ k,
      (q ∈ S.sendAt g p k ↔ p ∈ S.recvAt g q k) ∧
      (q ∈ S.sendAt g p k ↔ Crosses (G g) p q (S.workAt g p k)) := by
    intro g hg p hp q hq k
    obtain ⟨h1, h2, h3⟩ := hmatch g hg p hp q hq
    have h4 := hlen g hg p hp q hq
    rcases Nat.lt_or_ge k ((S.sched g).workOrders p).length with hk | hk
    · have e1 := List.getElem?_eq_getElem (l := (S.sched g).sendProcs p) (i := k) (by omega)
      have e2 := List.getElem?_eq_getElem (l := (S.sched g).recvProcs q) (i := k) (by omega)
      have e3 := List.getElem?_eq_getElem (l := (S.sched g).workOrders p) (i := k) (by omega)
      have := h3 k _ _ _ e1 e2 e3
      unfold Core.sendAt Core.recvAt Core.workAt
      rw [List.getD_eq_getElem _ _ (by omega), List.getD_eq_getElem _ _ (by omega),
        List.getD_eq_getElem _ _ (by omega)]
      exact this
    · unfold Core.sendAt Core.recvAt Core.workAt
      rw [List.getD_eq_default _ _ (by omega), List.getD_eq_default _ _ (by omega),
        List.getD_eq_default _ _ (by omega)]
      simp [Crosses]
  have hvalid : ∀ g < S.nAngleGroups, ∀ r < S.cfg.nRanks, ∀ (k i : Nat) (w : Work),
      (S.workAt g r k)[i]? = some w → w.cell < (S.cfg.mesh r).nCells ∧
      w.angle ∈ Verif.Partition.groupAngles S.cfg.nAngles S.nAngleGroups g := by
    intro g hg r hr k i w hw
    obtain ⟨l, hl, hm, -⟩ := getD_mem (List.mem_of_getElem? hw)
    have := (honce g hg r hr).2 w (List.mem_flatten.2 ⟨l, List.mem_of_getElem? hl, hm⟩)
    rw [B.mesh, B.angles] at this
    exact this
  constructor
  · exact B.forward
  · exact B.groups
  · intro a ha; exact (groupAngles_iff B.groups).2 ha
  · exact hbelow
  · intro g hg g' hg' a ha ha'
    obtain ⟨g0, -, -, h⟩ := Verif.Partition.angleGroup_valid S.cfg.nAngles S.nAngleGroups a B.groups
      (hbelow g hg a ha)
    rw [(h g hg).1 ha, (h g' hg').1 ha']
  · exact hvalid
  · intro g hg r hr c hc a ha
    have h1 := hcount g hg r hr c hc a ha
    have hm : (⟨c, a⟩ : Work) ∈ ((S.sched g).workOrders r).flatten := by
      rw [← List.count_pos_iff]; omega
    obtain ⟨l, hl, hml⟩ := List.mem_flatten.1 hm
    obtain ⟨k, hk⟩ := List.mem_iff_getElem?.1 hl
    obtain ⟨i, hi⟩ := List.mem_iff_getElem?.1 hml
    refine ⟨k, i, ?_⟩
    unfold Core.workAt
    rw [List.getD_eq_getElem?_getD, hk]
    exact hi
  · intro g hg r hr k i k' i' w h1 h2
    exact flatten_unique (hnd g hg r hr) h1 h2
  · intro g hg r hr k i w hw f y hm hn
    obtain ⟨hc, hang⟩ := hvalid g hg r hr k i w hw
    obtain ⟨l, hl, hml, he⟩ := getD_mem (List.mem_of_getElem? hw)
    unfold Core.workAt at hw
    rw [he] at hw
    obtain ⟨hil, hiw⟩ := List.getElem?_eq_some_iff.1 hw
    have hat : ListedAt ((S.sched g).workOrders r) k (l.take i) w := by
      refine ⟨l.drop (i + 1), ?_⟩
      rw [hl, ← hiw, List.cons_getElem_drop_succ, List.take_append_drop]
    obtain ⟨b, hb, hbl, hbe⟩ := hidx g w.angle hang
    obtain ⟨hnear, hfar⟩ := schedule_order (J g hg) (B.sched g hg).1 (r := r) (by rw [B.nRanks]; exact hr) (c := w.cell)
      hbl (by rw [hbe]; exact hat) hm ((B.wait g hg ⟨r, w.cell, f⟩ y b w.angle ⟨hr, hc⟩ hm hb).2 hn)
    rw [hbe] at hnear hfar
    have htake : ∀ r' (v : Work), v ∈ (((S.sched g).workOrders r').take k).flatten →
        ∃ k' i' : Nat, (S.workAt g r' k')[i']? = some v ∧ k' < k := by
      intro r' v hv
      obtain ⟨l', hl', hv'⟩ := List.mem_flatten.1 hv
      obtain ⟨k', hk'⟩ := List.mem_iff_getElem?.1 hl'
      obtain ⟨i', hi'⟩ := List.mem_iff_getElem?.1 hv'
      have hlt : k' < k := by
        have := (List.getElem?_eq_some_iff.1 hk').1
        rw [List.length_take] at this
        omega
      rw [List.getElem?_take_of_lt hlt] at hk'
      refine ⟨k', i', ?_, hlt⟩
      unfold Core.workAt
      rw [List.getD_eq_getElem?_getD, hk']
      exact hi'
    constructor
    · intro hy
      rcases List.mem_append.1 (hnear hy) with h1 | h1
      · obtain ⟨k', i', h2, h3⟩ := htake r _ h1
        exact ⟨k', i', h2, Or.inl h3⟩
      · obtain ⟨i', hi'⟩ := List.mem_iff_getElem?.1 h1
        have hlt' : i' < i := by
          have := (List.getElem?_eq_some_iff.1 hi').1
          rw [List.length_take] at this
          omega
        rw [List.getElem?_take_of_lt hlt'] at hi'
        refine ⟨k, i', ?_, Or.inr ⟨rfl, hlt'⟩⟩
        unfold Core.workAt
        rw [he]
        exact hi'
    · intro hy
      obtain ⟨l', h1, h2⟩ := hfar hy
      obtain ⟨k', i', h3, h4⟩ := htake y.rank _ (List.mem_flatten.2 ⟨l', h1, h2⟩)
      exact ⟨k', i', h3, Or.inl h4⟩
  · intro x y a hx hm ha hn
    obtain ⟨g, hg, hag⟩ := (groupAngles_iff B.groups).2 ha
    obtain ⟨i, hi, hil, -⟩ := hidx g a hag
    have hw := (B.wait g hg x y i a hx hm hi).2 hn
    rw [(J g hg).sync x y i ((hin g x).2 hx) hm hil] at hw
    exact (B.free g hg y x i a (L.mate_in x y hx hm) (L.mate_symm x y hx hm) hi).1 hw
  · intro g hg p hp q hq k
    exact (hcase g hg p hp q hq k).1
  · intro g hg p hp q hq k
    rw [(hcase g hg p hp q hq k).2]
    unfold Crosses
    rw [B.mesh]
    constructor
    · rintro ⟨w, hw, i, ha, f, h1, h2, h3⟩
      obtain ⟨j, hj⟩ := List.mem_iff_getElem?.1 hw
      have hx : S.cfg.In ⟨p, w.cell, f⟩ := ⟨hp, (hvalid g hg p hp k j w hj).1⟩
      obtain ⟨y, hy⟩ := Option.ne_none_iff_exists'.1 ((J g hg).free_mate ⟨p, w.cell, f⟩ i ((hin g _).2 hx) h1)
      exact ⟨w, hw, f, ⟨h2, (B.free g hg _ y i w.angle hx hy ha).1 h1⟩, h3⟩
    · rintro ⟨w, hw, f, hl, hrk⟩
      obtain ⟨i, hi⟩ := List.mem_iff_getElem?.1 hw
      obtain ⟨hc, hang⟩ := hvalid g hg p hp k i w hi
      obtain ⟨b, hb, -, -⟩ := hidx g w.angle hang
      have hx : S.cfg.In ⟨p, w.cell, f⟩ := ⟨hp, hc⟩
      have hmne : mate ⟨p, w.cell, f⟩ ≠ none := by
        intro hnone
        have : (S.cfg.mesh p).adjRank w.cell f = none := (L.ext _ hx hnone).2
        rw [hrk] at this
        simp at this
      obtain ⟨y, hy⟩ := Option.ne_none_iff_exists'.1 hmne
      exact ⟨w, hw, b, hb, f, (B.free g hg ⟨p, w.cell, f⟩ y b w.angle hx hy hb).2 hl.2, hl.1, hrk⟩
  · intro g hg r hr k
    by_cases hne : S.recvAt g r k = []
    · rw [hne]; exact List.nodup_nil
    · obtain ⟨x, hx⟩ := List.exists_mem_of_ne_nil _ hne
      obtain ⟨l, hl, -, he⟩ := getD_mem hx
      unfold Core.recvAt
      rw [he]
      exact ((procs_ok (B.sched g hg).1 r).2 l (List.mem_of_getElem? hl)).1
  · intro g hg r hr k q hq
    obtain ⟨l, hl, hm, -⟩ := getD_mem hq
    exact B.nRanks g ▸ ((procs_ok (B.sched g hg).1 r).2 l (List.mem_of_getElem? hl)).2 q hm
  · intro g hg r hr k q hq
    obtain ⟨l, hl, hm, -⟩ := getD_mem hq
    exact B.nRanks g ▸ ((procs_ok (B.sched g hg).1 r).1 l (List.mem_of_getElem? hl)).2 q hm
  · intro r hr q hq
    unfold Core.maxSteps
    have : ∀ (l : List Nat) (m : Nat), (∀ g ∈ l, g < S.nAngleGroups) →
        l.foldl (fun m g => max m ((S.sched g).workOrders r).length) m =
        l.foldl (fun m g => max m ((S.sched g).workOrders q).length) m := by
      intro l
      induction l with
      | nil => intro m _; rfl
      | cons x l ih =>
        intro m hl
        rw [List.foldl_cons, List.foldl_cons, hlen x (hl x (by simp)) r hr q hq]
        exact ih _ fun g hg => hl g (by simp [hg])
    exact this _ 0 fun g hg => List.mem_range.1 hg
  · intro g hg r hr k hk
    have h1 := (hmatch g hg r hr r hr).1
    have h2 := le_maxSteps (r := r) hg
    unfold Core.sendAt
    rw [List.getD_eq_default _ _ (by omega)]

end Verif.Schedule
