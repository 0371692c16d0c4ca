import Verif.Spec.Matter
import Verif.Proofs.Causal2
/-!
# Lemmas for C102: a step of the undivided simulation depends on the matter only
-/
namespace Verif.Matter
open Verif.Maxwell Verif.Pusher Verif.Deposit Verif.Shape Verif.WholeRun Verif.PicStep Verif.Symmetry

variable {k : Nat}

theorem SameMatter.trans {L : Fin k → ℚ} {a b c : List (Kind × List (Ptc k))} (h : SameMatter L a b) (h' : SameMatter L b c) :
    SameMatter L a c := fun F hF => (h F hF).trans (h' F hF)
theorem SameMatter.symm {L : Fin k → ℚ} {a b : List (Kind × List (Ptc k))} (h : SameMatter L a b) : SameMatter L b a :=
  fun F hF => (h F hF).symm

/-- the same particles are the same matter -/
theorem SameMatter.of_same {L : Fin k → ℚ} {a b : List (Kind × List (Ptc k))} (h : SameCloud L a b) : SameMatter L a b := by
  intro F hF
  unfold amount
  refine cloud_sum (h := fun κ p => p.mom.w * F κ p.pos (motion p)) ?_ h
  intro κ p q hpq
  have hz := hpq.2
  choose z hz using hz
  have e : p.pos = fun i => q.pos i + z i * L i := funext hz
  have m : motion p = motion q := by unfold motion; rw [hpq.1]
  rw [hpq.1, m, e, hF]

/-- the particle with a given momentum and weight one -/
def unitPtc (x : Fin k → ℚ) (u : Motion) : Ptc k := ⟨x, ⟨u.ux, u.uy, u.uz, u.invGamma, 1⟩⟩

/-- what the laws have to satisfy -/
structure Weighs (Φ : Phys k) (np n : Fin k → Nat) (d : Fin k → ℚ) : Prop where
  fe : LocalFE Φ.FE
  fb : LocalFB Φ.FB
  seePer : ∀ G x y, G.Per np n → (∀ i, ∃ z : ℤ, x i = y i + z * len np n d i) → Φ.see G x = Φ.see G y
  cur : ∀ a b, SameMatter (len np n d) a b → Slow d Φ.dt a → Slow d Φ.dt b → Φ.cur a = Φ.cur b

/-- the currents of a cloud of which every particle counts with its weight -/
theorem total_amount {h : ℚ → Ptc k → ℚ} (hw : ∀ q p, h q p = p.mom.w * h q (unitPtc p.pos (motion p))) (cl : List (Kind × List (Ptc k))) :
    total h cl = amount (fun κ x u => h κ.q (unitPtc x u)) cl := by
  unfold total amount
  congr 1
  refine List.map_congr_left fun s _ => ?_
  congr 1
  exact List.map_congr_left fun p _ => hw _ _

section
variable {Φ : Phys k} {np n : Fin k → Nat} {d : Fin k → ℚ} (H : Weighs Φ np n d)
include H

theorem Weighs.fate {G : GF k} (hG : G.Per np n) (κ : Kind) {p q : Ptc k} (h : SamePtc (len np n d) p q) :
    SamePtc (len np n d) (pushed Φ κ G p) (pushed Φ κ G q) := by
  obtain ⟨x, m⟩ := p
  obtain ⟨y, m'⟩ := q
  obtain ⟨hm, hz⟩ := h
  dsimp only at hm hz
  subst hm
  have hsee : Φ.see G (fun i : Fin k => x i + lightSpeed * (1 / 2) * Φ.dt * m.invGamma * uAt m i)
      = Φ.see G (fun i : Fin k => y i + lightSpeed * (1 / 2) * Φ.dt * m.invGamma * uAt m i) := by
    apply H.seePer G _ _ hG
    intro i
    obtain ⟨z, e⟩ := hz i
    exact ⟨z, by rw [e]; ring⟩
  unfold pushed
  dsimp only
  rw [hsee]
  refine ⟨rfl, fun i => ?_⟩
  obtain ⟨z, e⟩ := hz i
  exact ⟨z, by dsimp only; rw [e]; ring⟩

theorem Weighs.push {G : GF k} (hG : G.Per np n) {a b : List (Kind × List (Ptc k))} (h : SameMatter (len np n d) a b) :
    SameMatter (len np n d) (a.map fun s => (s.1, s.2.map (pushed Φ s.1 G))) (b.map fun s => (s.1, s.2.map (pushed Φ s.1 G))) := by
  intro F hF
  have key : ∀ cl : List (Kind × List (Ptc k)), amount F (cl.map fun s => (s.1, s.2.map (pushed Φ s.1 G)))
      = amount (fun κ x u => F κ (pushed Φ κ G (unitPtc x u)).pos (motion (pushed Φ κ G (unitPtc x u)))) cl := by
    intro cl
    unfold amount
    rw [List.map_map]
    congr 1
    refine List.map_congr_left fun s _ => ?_
    show (List.map _ (s.2.map (pushed Φ s.1 G))).sum = _
    rw [List.map_map]
    rfl
  rw [key, key]
  refine h _ fun κ x u z => ?_
  have hm : (pushed Φ κ G (unitPtc (fun i => x i + z i * len np n d i) u)).mom = (pushed Φ κ G (unitPtc x u)).mom :=
    (H.fate hG κ (p := unitPtc (fun i => x i + z i * len np n d i) u) (q := unitPtc x u) ⟨rfl, fun i => ⟨z i, rfl⟩⟩).1
  have hm' : motion (pushed Φ κ G (unitPtc (fun i => x i + z i * len np n d i) u)) = motion (pushed Φ κ G (unitPtc x u)) := by
    unfold motion; rw [hm]
  have hx : (pushed Φ κ G (unitPtc (fun i => x i + z i * len np n d i) u)).pos
      = fun i => (pushed Φ κ G (unitPtc x u)).pos i + z i * len np n d i := by
    funext i
    rw [pushed_pos, pushed_pos, hm]
    show x i + z i * len np n d i + _ + _ = x i + _ + _ + _
    have : (unitPtc (fun i => x i + z i * len np n d i) u).mom = (unitPtc x u).mom := rfl
    rw [this]; ring
  rw [hm', hx, hF]

/-- one step: the same fields and the same matter give the same fields and the same matter -/
theorem Weighs.step {W W' : World k} (hper : W.fld.Per np n) (hf : W'.fld = W.fld)
    (hn : Slow d Φ.dt (W.step Φ).cloud) (hn' : Slow d Φ.dt (W'.step Φ).cloud) (h : SameMatter (len np n d) W.cloud W'.cloud) :
    (W'.step Φ).fld = (W.step Φ).fld ∧ SameMatter (len np n d) (W.step Φ).cloud (W'.step Φ).cloud := by
  have hp : (midField Φ W.fld).Per np n := (hper.stepE H.fe _).stepB H.fb _
  have hc : SameMatter (len np n d) (W.step Φ).cloud (W'.step Φ).cloud := by
    show SameMatter _ (W.cloud.map fun s => (s.1, s.2.map (pushed Φ s.1 (midField Φ W.fld))))
      (W'.cloud.map fun s => (s.1, s.2.map (pushed Φ s.1 (midField Φ W'.fld))))
    rw [hf]
    exact H.push hp h
  refine ⟨?_, hc⟩
  show GF.step Φ.FE Φ.FB Φ.dt (Φ.cur (W'.step Φ).cloud) W'.fld = GF.step Φ.FE Φ.FB Φ.dt (Φ.cur (W.step Φ).cloud) W.fld
  rw [H.cur _ _ hc hn hn', hf]

theorem Weighs.run {W W' : World k} (hper : ∀ i, (World.run Φ W i).fld.Per np n) (hf : W'.fld = W.fld)
    (hs : ∀ i, Slow d Φ.dt (World.run Φ W i).cloud) (hs' : ∀ i, Slow d Φ.dt (World.run Φ W' i).cloud)
    (h : SameMatter (len np n d) W.cloud W'.cloud) (i : Nat) :
    (World.run Φ W' i).fld = (World.run Φ W i).fld ∧ SameMatter (len np n d) (World.run Φ W i).cloud (World.run Φ W' i).cloud := by
  induction i with
  | zero => exact ⟨hf, h⟩
  | succ i ih => exact H.step (hper i) ih.1 (hs (i + 1)) (hs' (i + 1)) ih.2

/-- a species that is in both simulations -/
theorem Weighs.run_species {W W' : World k} (hper : ∀ i, (World.run Φ W i).fld.Per np n)
    (hf : ∀ i, (World.run Φ W' i).fld = (World.run Φ W i).fld) {r r' : Nat} {s s' : Kind × List (Ptc k)}
    (h0 : W.cloud[r]? = some s) (h0' : W'.cloud[r']? = some s') (hk : s.1 = s'.1) (h : SameParticles (len np n d) s.2 s'.2) (i : Nat) :
    ∃ t t', (World.run Φ W i).cloud[r]? = some t ∧ (World.run Φ W' i).cloud[r']? = some t' ∧ t.1 = t'.1 ∧ SameParticles (len np n d) t.2 t'.2 := by
  induction i with
  | zero => exact ⟨s, s', h0, h0', hk, h⟩
  | succ i ih =>
    obtain ⟨t, t', e, e', k1, h1⟩ := ih
    have hp : (midField Φ (World.run Φ W i).fld).Per np n := ((hper i).stepE H.fe _).stepB H.fb _
    refine ⟨(t.1, t.2.map (pushed Φ t.1 (midField Φ (World.run Φ W i).fld))),
      (t'.1, t'.2.map (pushed Φ t'.1 (midField Φ (World.run Φ W' i).fld))), ?_, ?_, ?_, ?_⟩
    · show (List.map _ _)[r]? = _
      rw [List.getElem?_map, e]; rfl
    · show (List.map _ _)[r']? = _
      rw [List.getElem?_map, e']; rfl
    · exact k1
    · dsimp only
      rw [hf i, ← k1]
      exact h1.map fun p q hpq => H.fate hp t.1 hpq
end

/-! ## the laws of the 2D and the 3D simulation -/

theorem shift_cells {N : Nat} (hN : 0 < N) {d : ℚ} (hd : 0 < d) (dt x v : ℚ) (z c : Int) :
    l0 N d dt (x + z * (N * d)) v c = l0 N d dt x v c ∧ l1 N d dt (x + z * (N * d)) v c = l1 N d dt x v c ∧
    lc N d dt (x + z * (N * d)) v c = lc N d dt x v c := by
  have e : x + z * (N * d) = x + ((z * N : Int) : ℚ) * d := by push_cast; ring
  have m : (c - z * (N : Int)) % (N : Int) = c % N := Int.sub_mul_emod_self_right c z N
  rw [e, l0_move hN hd, l1_move hN hd, lc_move hN hd]
  unfold l0 l1 lc w0 w1 wc
  rw [m]
  exact ⟨rfl, rfl, rfl⟩

theorem j2_unit (N : Fin 2 → Nat) (d : Fin 2 → ℚ) (dt q : ℚ) (p : Ptc 2) (f : Fin 3) (c : Fin 2 → Int) :
    j2 N d dt q p f c = p.mom.w * j2 N d dt q (unitPtc p.pos (motion p)) f c := by
  have vx : (unitPtc p.pos (motion p)).mom.vx = p.mom.vx := rfl
  have vy : (unitPtc p.pos (motion p)).mom.vy = p.mom.vy := rfl
  have vz : (unitPtc p.pos (motion p)).mom.vz = p.mom.vz := rfl
  have w1 : (unitPtc p.pos (motion p)).mom.w = 1 := rfl
  have px : (unitPtc p.pos (motion p)).pos = p.pos := rfl
  unfold j2
  rw [vx, vy, vz, w1, px]
  match f with
  | 0 => dsimp only; ring
  | 1 => dsimp only; ring
  | 2 => dsimp only; ring

theorem j2_shift {np n : Fin 2 → Nat} (hN : ∀ a, 0 < np a * n a) {d : Fin 2 → ℚ} (hd : ∀ a, 0 < d a) (dt q : ℚ) (x : Fin 2 → ℚ)
    (m : Mom) (z : Fin 2 → ℤ) (f : Fin 3) (c : Fin 2 → Int) :
    j2 (fun a => np a * n a) d dt q ⟨fun i => x i + z i * len np n d i, m⟩ f c = j2 (fun a => np a * n a) d dt q ⟨x, m⟩ f c := by
  have s : ∀ i : Fin 2, x i + z i * len np n d i = x i + z i * (((np i * n i : Nat) : ℚ) * d i) := by
    intro i; unfold len; push_cast; ring
  have h0 := fun v => shift_cells (hN 0) (hd 0) dt (x 0) v (z 0) (c 0)
  have h1 := fun v => shift_cells (hN 1) (hd 1) dt (x 1) v (z 1) (c 1)
  unfold j2 lm
  dsimp only
  rw [s 0, s 1]
  simp only [(h0 _).1, (h0 _).2.1, (h0 _).2.2, (h1 _).1, (h1 _).2.1, (h1 _).2.2]

theorem weighs2 {np n : Fin 2 → Nat} (hN : ∀ a, 0 < np a * n a) {d : Fin 2 → ℚ} (hd : ∀ a, 0 < d a) {c2 eps0 dt : ℚ} (hdt : dt ≠ 0) (rs : ℚ → ℚ) :
    Weighs (phys2 (fun a => np a * n a) d c2 eps0 dt rs) np n d where
  fe := localFE2 _
  fb := localFB2 _
  seePer := fun _ _ _ hp h => see_congr2 hd hp h
  cur := by
    intro a b h ha hb
    funext f c
    show cur2 _ d dt a f c = cur2 _ d dt b f c
    rw [cur_total2 hN hd hdt ha, cur_total2 hN hd hdt hb]
    rw [total_amount fun q p => j2_unit _ d dt q p f c, total_amount fun q p => j2_unit _ d dt q p f c]
    exact h _ fun κ x u z => j2_shift hN hd dt κ.q x (unitPtc x u).mom z f c

theorem j3_unit (N : Fin 3 → Nat) (d : Fin 3 → ℚ) (dt q : ℚ) (p : Ptc 3) (f : Fin 3) (c : Fin 3 → Int) :
    j3 N d dt q p f c = p.mom.w * j3 N d dt q (unitPtc p.pos (motion p)) f c := by
  have vx : (unitPtc p.pos (motion p)).mom.vx = p.mom.vx := rfl
  have vy : (unitPtc p.pos (motion p)).mom.vy = p.mom.vy := rfl
  have vz : (unitPtc p.pos (motion p)).mom.vz = p.mom.vz := rfl
  have w1 : (unitPtc p.pos (motion p)).mom.w = 1 := rfl
  have px : (unitPtc p.pos (motion p)).pos = p.pos := rfl
  unfold j3
  rw [vx, vy, vz, w1, px]
  match f with
  | 0 => dsimp only; ring
  | 1 => dsimp only; ring
  | 2 => dsimp only; ring

theorem j3_shift {np n : Fin 3 → Nat} (hN : ∀ a, 0 < np a * n a) {d : Fin 3 → ℚ} (hd : ∀ a, 0 < d a) (dt q : ℚ) (x : Fin 3 → ℚ)
    (m : Mom) (z : Fin 3 → ℤ) (f : Fin 3) (c : Fin 3 → Int) :
    j3 (fun a => np a * n a) d dt q ⟨fun i => x i + z i * len np n d i, m⟩ f c = j3 (fun a => np a * n a) d dt q ⟨x, m⟩ f c := by
  have s : ∀ i : Fin 3, x i + z i * len np n d i = x i + z i * (((np i * n i : Nat) : ℚ) * d i) := by
    intro i; unfold len; push_cast; ring
  have h0 := fun v => shift_cells (hN 0) (hd 0) dt (x 0) v (z 0) (c 0)
  have h1 := fun v => shift_cells (hN 1) (hd 1) dt (x 1) v (z 1) (c 1)
  have h2 := fun v => shift_cells (hN 2) (hd 2) dt (x 2) v (z 2) (c 2)
  unfold j3
  dsimp only
  rw [s 0, s 1, s 2]
  simp only [(h0 _).1, (h0 _).2.1, (h0 _).2.2, (h1 _).1, (h1 _).2.1, (h1 _).2.2, (h2 _).1, (h2 _).2.1, (h2 _).2.2]

theorem weighs3 {np n : Fin 3 → Nat} (hN : ∀ a, 2 ≤ np a * n a) {d : Fin 3 → ℚ} (hd : ∀ a, 0 < d a) {c2 eps0 dt : ℚ} (hdt : dt ≠ 0) (rs : ℚ → ℚ) :
    Weighs (phys3 (fun a => np a * n a) d c2 eps0 dt rs) np n d where
  fe := localFE3 _
  fb := localFB3 _
  seePer := fun _ _ _ hp h => see_congr3 hd hp h
  cur := by
    have hN' : ∀ a, 0 < np a * n a := fun a => lt_of_lt_of_le (by omega) (hN a)
    intro a b h ha hb
    funext f c
    show cur3 _ d dt a f c = cur3 _ d dt b f c
    rw [cur_total3 hN hd hdt ha, cur_total3 hN hd hdt hb]
    rw [total_amount fun q p => j3_unit _ d dt q p f c, total_amount fun q p => j3_unit _ d dt q p f c]
    exact h _ fun κ x u z => j3_shift hN' hd dt κ.q x (unitPtc x u).mom z f c

end Verif.Matter
