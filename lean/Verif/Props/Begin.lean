import Verif.Props.WholeRun
/-!
# Which states of the program show an undivided simulation (C66)

The properties of complete runs ask that the first state shows some undivided simulation (`Starts`). Here: exactly the states in
which cells at the same place of the periodic grid hold the same values and the particles lie in their patches do.

Specification vocabulary: `Consistent` below; `Starts`, `Inside` of C66.
-/
namespace Verif.Begin
open Verif.Maxwell Verif.SyncFields Verif.Pusher Verif.Deposit Verif.WholeRun Verif.PicStep Verif.Neighbors

variable {k : Nat}

/-- Specification: stored cells of E and B, guard cells included, that lie at the same place of the periodic grid hold the same values -/
def Consistent (C : Conf k) (N : Nat) (co : Nat → Fin k → Nat) (x : St k) : Prop :=
  ∀ t, t < N → ∀ s, s < N → ∀ v w, Stored C.n C.ng v → Stored C.n C.ng w →
    (∀ a, onGrid C.n (co t) v a ≡ onGrid C.n (co s) w a [ZMOD (C.np a * C.n a : Int)]) → ∀ f,
    (x.fld t).e f (index C.n C.ng v) = (x.fld s).e f (index C.n C.ng w) ∧
    (x.fld t).b f (index C.n C.ng v) = (x.fld s).b f (index C.n C.ng w)

/-! ## every cell of the grid is an own cell of a patch -/

/-- every cell of the periodic grid is an own cell of one of the patches -/
def Covered (C : Conf k) (N : Nat) (co : Nat → Fin k → Nat) : Prop :=
  ∀ c : Fin k → Int, ∃ t, t < N ∧ ∃ v, Stored C.n 0 v ∧ ∀ a, onGrid C.n (co t) v a ≡ c a [ZMOD (C.np a * C.n a : Int)]

theorem cell_split {np n : Nat} (hp : 0 < np) (hn : 0 < n) (c : Int) :
    ∃ i : Nat, i < np ∧ ∃ v : Int, (-((0 : Nat) : Int) ≤ v ∧ v < n + ((0 : Nat) : Int)) ∧ (i * n + v : Int) ≡ c [ZMOD (np * n : Int)] := by
  have hp' : (0 : Int) < np := by exact_mod_cast hp
  have hn' : (0 : Int) < n := by exact_mod_cast hn
  have h0 := Int.emod_nonneg (c / n) hp'.ne'
  have h1 := Int.emod_lt_of_pos (c / n) hp'
  have g0 := Int.emod_nonneg c hn'.ne'
  have g1 := Int.emod_lt_of_pos c hn'
  refine ⟨(c / n % np).toNat, by omega, c % n, ⟨by simpa using g0, by simpa using g1⟩, ?_⟩
  have e : (((c / n % np).toNat : Nat) : Int) = c / n % np := by omega
  rw [e]
  refine Int.modEq_iff_dvd.mpr ⟨c / n / np, ?_⟩
  have a1 := Int.mul_ediv_add_emod c n
  have a2 := Int.mul_ediv_add_emod (c / n) np
  have a3 : c % n = c - n * (c / n) := by linarith
  have a4 : c / n % np = c / n - np * (c / n / np) := by linarith
  rw [a3, a4]
  ring

theorem covered2 {C : Conf 2} {β : ℚ} (hC : Admissible C β) : Covered C (sys2 C).npatches C.coord2 := by
  intro c
  have hn : ∀ a, 0 < C.n a := fun a => lt_of_lt_of_le (lt_of_lt_of_le (by omega) hC.guard) (hC.wide a)
  choose i hi v hv hc using fun a => cell_split (hC.patches a) (hn a) (c a)
  obtain ⟨t, ht⟩ := List.mem_iff_getElem?.mp (mem_createPatches2.mpr ⟨hi 0, hi 1, rfl⟩ :
    (⟨i 0 + i 1 * C.np 0, i 0, i 1⟩ : P2) ∈ createPatches2 (C.np 0) (C.np 1))
  obtain ⟨hl, _⟩ := List.getElem?_eq_some_iff.mp ht
  refine ⟨t, hl, v, hv, fun a => ?_⟩
  have e : C.coord2 t = i := by
    unfold Conf.coord2
    rw [ht]
    funext a
    match a with
    | 0 => rfl
    | 1 => rfl
  unfold onGrid
  rw [e]
  exact hc a

theorem covered3 {C : Conf 3} {β : ℚ} (hC : Admissible C β) : Covered C (sys3 C).npatches C.coord3 := by
  intro c
  have hn : ∀ a, 0 < C.n a := fun a => lt_of_lt_of_le (lt_of_lt_of_le (by omega) hC.guard) (hC.wide a)
  choose i hi v hv hc using fun a => cell_split (hC.patches a) (hn a) (c a)
  obtain ⟨t, ht⟩ := List.mem_iff_getElem?.mp (mem_createPatches3.mpr ⟨hi 0, hi 1, hi 2, rfl⟩ :
    (⟨i 0 + i 1 * C.np 0 + i 2 * C.np 0 * C.np 1, i 0, i 1, i 2⟩ : P3) ∈ createPatches3 (C.np 0) (C.np 1) (C.np 2))
  obtain ⟨hl, _⟩ := List.getElem?_eq_some_iff.mp ht
  refine ⟨t, hl, v, hv, fun a => ?_⟩
  have e : C.coord3 t = i := by
    unfold Conf.coord3
    rw [ht]
    funext a
    match a with
    | 0 => rfl
    | 1 => rfl
    | 2 => rfl
  unfold onGrid
  rw [e]
  exact hc a

/-- own cells of different patches lie at different places -/
structure Apart (C : Conf k) (N : Nat) (co : Nat → Fin k → Nat) : Prop where
  lt : ∀ t, t < N → ∀ a, co t a < C.np a
  inj : ∀ t, t < N → ∀ s, s < N → co t = co s → t = s

theorem own_unique {C : Conf k} {N : Nat} {co : Nat → Fin k → Nat} (h : Apart C N co) {t s : Nat} (ht : t < N) (hs : s < N) {v w : Fin k → Int}
    (hv : Stored C.n 0 v) (hw : Stored C.n 0 w)
    (he : ∀ a, onGrid C.n (co t) v a ≡ onGrid C.n (co s) w a [ZMOD (C.np a * C.n a : Int)]) : t = s ∧ v = w := by
  have key : ∀ a, co t a = co s a ∧ v a = w a := by
    intro a
    obtain ⟨v0, v1⟩ := hv a
    obtain ⟨w0, w1⟩ := hw a
    have b : ∀ r, r < N → ∀ u : Int, 0 ≤ u → u < C.n a → 0 ≤ (co r a * C.n a + u : Int) ∧ (co r a * C.n a + u : Int) < C.np a * C.n a := by
      intro r hr u h0 h1
      have h2 : ((co r a : Nat) : Int) + 1 ≤ C.np a := by exact_mod_cast h.lt r hr a
      have h3 : (((co r a : Nat) : Int) + 1) * C.n a ≤ C.np a * C.n a := mul_le_mul_of_nonneg_right h2 (by positivity)
      constructor
      · positivity
      · linarith
    have bt := b t ht (v a) (by simpa using v0) (by simpa using v1)
    have bs := b s hs (w a) (by simpa using w0) (by simpa using w1)
    have e : (co t a * C.n a + v a : Int) = co s a * C.n a + w a := by
      have := he a
      unfold onGrid Int.ModEq at this
      rwa [Int.emod_eq_of_lt bt.1 bt.2, Int.emod_eq_of_lt bs.1 bs.2] at this
    have hn : (0 : Int) < C.n a := by have := v0; have := v1; push_cast at *; omega
    have d1 : (co t a * C.n a + v a : Int) / C.n a = co t a := by
      rw [add_comm, Int.add_mul_ediv_right _ _ hn.ne', Int.ediv_eq_zero_of_lt (by simpa using v0) (by simpa using v1), zero_add]
    have d2 : (co s a * C.n a + w a : Int) / C.n a = co s a := by
      rw [add_comm, Int.add_mul_ediv_right _ _ hn.ne', Int.ediv_eq_zero_of_lt (by simpa using w0) (by simpa using w1), zero_add]
    have d : (co t a : Int) = co s a := by rw [← d1, ← d2, e]
    refine ⟨by exact_mod_cast d, ?_⟩
    rw [d] at e
    linarith
  exact ⟨h.inj t ht s hs (funext fun a => (key a).1), funext fun a => (key a).2⟩

theorem apart2 (C : Conf 2) : Apart C (sys2 C).npatches C.coord2 where
  lt t ht a := by
    have ht' : t < (createPatches2 (C.np 0) (C.np 1)).length := ht
    have h := mem_createPatches2.mp (List.getElem_mem ht')
    unfold Conf.coord2
    rw [List.getElem?_eq_getElem ht']
    match a with
    | 0 => exact h.1
    | 1 => exact h.2.1
  inj t ht s hs e := by
    have ht' : t < (createPatches2 (C.np 0) (C.np 1)).length := ht
    have hs' : s < (createPatches2 (C.np 0) (C.np 1)).length := hs
    have h1 := mem_createPatches2.mp (List.getElem_mem ht')
    have h2 := mem_createPatches2.mp (List.getElem_mem hs')
    unfold Conf.coord2 at e
    rw [List.getElem?_eq_getElem ht', List.getElem?_eq_getElem hs'] at e
    have e0 := congrFun e 0
    have e1 := congrFun e 1
    dsimp only at e0 e1
    refine (List.Nodup.getElem_inj_iff (nodup_createPatches2 (C.np 0) (C.np 1)) (hi := ht') (hj := hs')).mp ?_
    generalize (createPatches2 (C.np 0) (C.np 1))[t] = p at *
    generalize (createPatches2 (C.np 0) (C.np 1))[s] = q at *
    obtain ⟨i1, a1, b1⟩ := p
    obtain ⟨i2, a2, b2⟩ := q
    have x0 : a1 = a2 := e0
    have x1 : b1 = b2 := e1
    subst x0 x1
    have y1 := h1.2.2
    have y2 := h2.2.2
    dsimp only at y1 y2
    rw [y1, y2]

theorem apart3 (C : Conf 3) : Apart C (sys3 C).npatches C.coord3 where
  lt t ht a := by
    have ht' : t < (createPatches3 (C.np 0) (C.np 1) (C.np 2)).length := ht
    have h := mem_createPatches3.mp (List.getElem_mem ht')
    unfold Conf.coord3
    rw [List.getElem?_eq_getElem ht']
    match a with
    | 0 => exact h.1
    | 1 => exact h.2.1
    | 2 => exact h.2.2.1
  inj t ht s hs e := by
    have ht' : t < (createPatches3 (C.np 0) (C.np 1) (C.np 2)).length := ht
    have hs' : s < (createPatches3 (C.np 0) (C.np 1) (C.np 2)).length := hs
    have h1 := mem_createPatches3.mp (List.getElem_mem ht')
    have h2 := mem_createPatches3.mp (List.getElem_mem hs')
    unfold Conf.coord3 at e
    rw [List.getElem?_eq_getElem ht', List.getElem?_eq_getElem hs'] at e
    have e0 := congrFun e 0
    have e1 := congrFun e 1
    have e2 := congrFun e 2
    dsimp only at e0 e1 e2
    refine (List.Nodup.getElem_inj_iff (nodup_createPatches3 (C.np 0) (C.np 1) (C.np 2)) (hi := ht') (hj := hs')).mp ?_
    generalize (createPatches3 (C.np 0) (C.np 1) (C.np 2))[t] = p at *
    generalize (createPatches3 (C.np 0) (C.np 1) (C.np 2))[s] = q at *
    obtain ⟨i1, a1, b1, c1⟩ := p
    obtain ⟨i2, a2, b2, c2⟩ := q
    have x0 : a1 = a2 := e0
    have x1 : b1 = b2 := e1
    have x2 : c1 = c2 := e2
    subst x0 x1 x2
    have y1 := h1.2.2.2
    have y2 := h2.2.2.2
    dsimp only at y1 y2
    rw [y1, y2]

theorem own_stored {C : Conf k} {v : Fin k → Int} (hv : Stored C.n 0 v) : Stored C.n C.ng v := fun a => by
  have := hv a
  push_cast at this
  constructor <;> omega

theorem starts_iff {C : Conf k} {N : Nat} {co : Nat → Fin k → Nat} (hc : Covered C N co) (ha : Apart C N co) {β : ℚ} {x : St k} :
    (∃ W, Starts C N co β x W) ↔ Consistent C N co x ∧ Inside C N co β x := by
  constructor
  · rintro ⟨W, h⟩
    refine ⟨?_, h.inside⟩
    intro t ht s hs v w hv hw he f
    obtain ⟨r1, r2, _⟩ := h.period _ _ he f
    exact ⟨by rw [h.agrees.e t ht f v hv, h.agrees.e s hs f w hw, r1], by rw [h.agrees.b t ht f v hv, h.agrees.b s hs f w hw, r2]⟩
  · rintro ⟨h, hi⟩
    choose T hT V hV hE using hc
    refine ⟨⟨⟨fun f c => (x.fld (T c)).e f (index C.n C.ng (V c)), fun f c => (x.fld (T c)).b f (index C.n C.ng (V c)),
      fun f c => (x.fld (T c)).j f (index C.n C.ng (V c))⟩, cloudOf N x.parts⟩, ⟨?_, ?_, ?_, ?_⟩, hi, ?_⟩
    · intro t ht f v hv
      exact (h t ht _ (hT _) v _ hv (own_stored (hV _)) (fun a => (hE _ a).symm) f).1
    · intro t ht f v hv
      exact (h t ht _ (hT _) v _ hv (own_stored (hV _)) (fun a => (hE _ a).symm) f).2
    · intro t ht f v hv
      obtain ⟨e1, e2⟩ := own_unique ha ht (hT _) hv (hV _) fun a => (hE (onGrid C.n (co t) v) a).symm
      show _ = (x.fld (T (onGrid C.n (co t) v))).j f (index C.n C.ng (V (onGrid C.n (co t) v)))
      rw [← e1, ← e2]
    · exact List.forall₂_same.mpr fun s _ => ⟨rfl, .of_perm (.refl _)⟩
    · intro v w hvw f
      obtain ⟨e1, e2⟩ := own_unique ha (hT v) (hT w) (hV v) (hV w) fun a => (hE v a).trans ((hvw a).trans (hE w a).symm)
      show (x.fld (T v)).e f (index C.n C.ng (V v)) = (x.fld (T w)).e f (index C.n C.ng (V w)) ∧
        (x.fld (T v)).b f (index C.n C.ng (V v)) = (x.fld (T w)).b f (index C.n C.ng (V w)) ∧
        (x.fld (T v)).j f (index C.n C.ng (V v)) = (x.fld (T w)).j f (index C.n C.ng (V w))
      rw [e1, e2]
      exact ⟨rfl, rfl, rfl⟩

/-- C66 in 2D: a state shows an undivided simulation if and only if cells at the same place hold the same values and the particles lie in
their patches -/
theorem starts_iff2 {C : Conf 2} {β : ℚ} (hC : Admissible C β) {x : St 2} :
    (∃ W, Starts C (sys2 C).npatches C.coord2 β x W) ↔
      Consistent C (sys2 C).npatches C.coord2 x ∧ Inside C (sys2 C).npatches C.coord2 β x :=
  starts_iff (covered2 hC) (apart2 C)

/-- the same in 3D -/
theorem starts_iff3 {C : Conf 3} {β : ℚ} (hC : Admissible C β) {x : St 3} :
    (∃ W, Starts C (sys3 C).npatches C.coord3 β x W) ↔
      Consistent C (sys3 C).npatches C.coord3 x ∧ Inside C (sys3 C).npatches C.coord3 β x :=
  starts_iff (covered3 hC) (apart3 C)

/-- a state with one electron in two patches -/
example : ∃ W, Starts (exConf 2 ![2, 1] ![4, 3]) (sys2 (exConf 2 ![2, 1] ![4, 3])).npatches (exConf 2 ![2, 1] ![4, 3]).coord2 1 (exState 2 false) W :=
  ⟨_, exStarts (np := ![2, 1]) (n := ![4, 3]) (fun a => match a with | 0 => by decide | 1 => by decide) (by decide)
    (by funext a; match a with | 0 => rfl | 1 => rfl) false⟩

/-- the same in 3D -/
example : ∃ W, Starts (exConf 3 ![2, 1, 1] ![4, 3, 3]) (sys3 (exConf 3 ![2, 1, 1] ![4, 3, 3])).npatches (exConf 3 ![2, 1, 1] ![4, 3, 3]).coord3 1
    (exState 3 true) W :=
  ⟨_, exStarts (np := ![2, 1, 1]) (n := ![4, 3, 3]) (fun a => match a with | 0 => by decide | 1 => by decide | 2 => by decide) (by decide)
    (by funext a; match a with | 0 => rfl | 1 => rfl | 2 => rfl) true⟩

end Verif.Begin
