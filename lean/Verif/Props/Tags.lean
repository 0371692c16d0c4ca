import Verif.Proofs.Tags
import Verif.Props.MpiFields
/-!
# C29 — message tags

`rk p` is the rank of patch `p` (any function), `order r` the (patch, boundary) pairs rank `r` works
through, in any order (`Covers`). A channel is what one rank posts towards one other rank with one tag, in
program order. MPI matches the posts of a channel in order, so an exchange is right exactly when both ends of
every channel list the same contents, and unambiguous when no channel mixes different (patch, boundary,
species or attribute).
-/
namespace Verif.Tags
open SyncFields Neighbors

/-- the patch and boundary the message comes from, and its species or attribute -/
def Content.source {D : Type} : Content D → Nat × D × Nat
  | .count p b j => (p, b, j)
  | .data p b j => (p, b, j)

/-- every rank works through exactly its own (patch, boundary) pairs, each once, in any order -/
def Covers {D : Type} (N : Nat) (rk : Nat → Nat) (order : Nat → List (Nat × D)) : Prop :=
  (∀ r p b, (p, b) ∈ order r ↔ p < N ∧ rk p = r) ∧ ∀ r, (order r).Nodup

/-- what C29 asks of the posts of all ranks: both ends of every channel agree, and a channel only carries
messages of one source, each message at most once -/
def Matched {D : Type} (sends recvs : Nat → List (Post D)) : Prop :=
  ∀ s r t, channel (sends s) r t = channel (recvs r) s t ∧
    (channel (sends s) r t).Nodup ∧
    ∀ c ∈ channel (sends s) r t, ∀ c' ∈ channel (sends s) r t, c.source = c'.source

theorem grid_sym2 {npx npy : Nat} {bx by' : AxisBC} (hx : bx.Paired) (hy : by'.Paired) {p : Nat} {b : B2} {q : Nat}
    (hp : p < (createPatches2 npx npy).length) (h : gridNbr2 npx npy bx by' p b = some q) :
    q < (createPatches2 npx npy).length ∧ gridNbr2 npx npy bx by' q b.opp = some p := by
  have hs := current2_shape (ng := 0) (N := (createPatches2 npx npy).length) (nbr := gridNbr2 npx npy bx by')
    (Nat.zero_le 0) (Nat.zero_le 0)
  have hg := (nbrGeo2 (s := syncCurrents2 0 0 0 (createPatches2 npx npy).length (gridNbr2 npx npy bx by'))
    hx hy (grid_createPatches2 npx npy) (fun _ h => h) (nodup_createPatches2 npx npy) rfl rfl).ok hs
  exact ⟨hg.lt p b q hp h, hg.sym p b q hp h⟩

theorem grid_sym3 {npx npy npz : Nat} {bx by' bz : AxisBC} (hx : bx.Paired) (hy : by'.Paired) (hz : bz.Paired)
    {p : Nat} {b : B3} {q : Nat}
    (hp : p < (createPatches3 npx npy npz).length) (h : gridNbr3 npx npy npz bx by' bz p b = some q) :
    q < (createPatches3 npx npy npz).length ∧ gridNbr3 npx npy npz bx by' bz q b.opp = some p := by
  have hs := current3_shape (ng := 0) (N := (createPatches3 npx npy npz).length)
    (nbr := gridNbr3 npx npy npz bx by' bz) (Nat.zero_le 0) (Nat.zero_le 0) (Nat.zero_le 0)
  have hg := (nbrGeo3 (s := syncCurrents3 0 0 0 0 (createPatches3 npx npy npz).length
    (gridNbr3 npx npy npz bx by' bz))
    hx hy hz (grid_createPatches3 npx npy npz) (fun _ h => h) (nodup_createPatches3 npx npy npz) rfl rfl).ok hs
  exact ⟨hg.lt p b q hp h, hg.sym p b q hp h⟩

theorem remote_sym {D : Type} {rk : Nat → Nat} {nbr : Nat → D → Option Nat} {opp : D → D} {N : Nat}
    (h : ∀ p b q, p < N → nbr p b = some q → q < N ∧ nbr q (opp b) = some p) (p : Nat) (b : D) (q : Nat)
    (hp : p < N) (hq : remoteNbr rk nbr p b = some q) :
    q < N ∧ remoteNbr rk nbr q (opp b) = some p := by
  obtain ⟨h1, h2⟩ := remoteNbr_some.mp hq
  obtain ⟨h3, h4⟩ := h p b q hp h1
  exact ⟨h3, remoteNbr_some.mpr ⟨h4, fun e => h2 e.symm⟩⟩

theorem b2_opp_opp (b : B2) : b.opp.opp = b := by cases b <;> rfl
theorem b3_opp_opp (b : B3) : b.opp.opp = b := by cases b <;> rfl

theorem matched_particles {D : Type} {x : Exchange D} {N : Nat} (hx : OK x N) (out : Nat → D → Nat → Nat) :
    Matched (x.particleSends out) (x.particleRecvs out) := by
  intro s r t
  refine ⟨particle_channels hx out s r t, ?_⟩
  rcases particleSends_nodup hx out s r t with h | ⟨p, b, j, _, _, _, _, h⟩
  · rw [h]; simp
  · rw [h]
    by_cases ho : out p b j > 0
    · rw [if_pos ho]; simp [Content.source]
    · rw [if_neg ho]; simp

theorem matched_fields {D : Type} {x : Exchange D} {N : Nat} (hx : OK x N) :
    Matched x.fieldSends x.fieldRecvs := by
  intro s r t
  refine ⟨field_channels hx s r t, ?_⟩
  rcases fieldSends_single hx s r t with h | ⟨p, b, j, _, _, _, _, h⟩
  · rw [h]; simp
  · rw [h]; simp

/-- **C29, particles in 2D.** For every patch grid, distribution over ranks, number of species and numbers of
leaving particles. -/
theorem particle_messages2 {npx npy : Nat} {bx by' : AxisBC} (hx : bx.Paired) (hy : by'.Paired) (rk : Nat → Nat)
    {order : Nat → List (Nat × B2)} (ho : Covers (createPatches2 npx npy).length rk order) (nspec : Nat)
    (out : Nat → B2 → Nat → Nat) :
    Matched ((particles2 rk (gridNbr2 npx npy bx by') order nspec).particleSends out)
      ((particles2 rk (gridNbr2 npx npy bx by') order nspec).particleRecvs out) := by
  refine matched_particles (N := (createPatches2 npx npy).length) ⟨?_, ?_, b2_opp_opp, ho.1, ho.2⟩ out
  · intro p b j p' b' j' hj hj' h
    obtain ⟨h1, h2, h3⟩ := particleTag_inj (num2_lt b) (num2_lt b') hj hj' h
    exact ⟨h1, num2_inj h2, h3⟩
  · exact remote_sym fun p b q hp h => grid_sym2 hx hy hp h

/-- **C29, particles in 3D.** -/
theorem particle_messages3 {npx npy npz : Nat} {bx by' bz : AxisBC} (hx : bx.Paired) (hy : by'.Paired)
    (hz : bz.Paired) (rk : Nat → Nat) {order : Nat → List (Nat × B3)}
    (ho : Covers (createPatches3 npx npy npz).length rk order) (nspec : Nat) (out : Nat → B3 → Nat → Nat) :
    Matched ((particles3 rk (gridNbr3 npx npy npz bx by' bz) order nspec).particleSends out)
      ((particles3 rk (gridNbr3 npx npy npz bx by' bz) order nspec).particleRecvs out) := by
  refine matched_particles (N := (createPatches3 npx npy npz).length) ⟨?_, ?_, b3_opp_opp, ho.1, ho.2⟩ out
  · intro p b j p' b' j' hj hj' h
    obtain ⟨h1, h2, h3⟩ := particleTag_inj (num3_lt b) (num3_lt b') hj hj' h
    exact ⟨h1, num3_inj h2, h3⟩
  · exact remote_sym fun p b q hp h => grid_sym3 hx hy hz hp h

/-- **C29, fields in 2D.** Currents, and guard cells of any number of attributes. -/
theorem field_messages2 {npx npy : Nat} {bx by' : AxisBC} (hx : bx.Paired) (hy : by'.Paired) (rk : Nat → Nat)
    {order : Nat → List (Nat × B2)} (ho : Covers (createPatches2 npx npy).length rk order) (nattrs : Nat) :
    Matched (currents2 rk (gridNbr2 npx npy bx by') order).fieldSends
      (currents2 rk (gridNbr2 npx npy bx by') order).fieldRecvs ∧
    Matched (guards2 rk (gridNbr2 npx npy bx by') order nattrs).fieldSends
      (guards2 rk (gridNbr2 npx npy bx by') order nattrs).fieldRecvs := by
  constructor
  · refine matched_fields (N := (createPatches2 npx npy).length) ⟨?_, ?_, b2_opp_opp, ho.1, ho.2⟩
    · intro p b j p' b' j' hj hj' h
      obtain ⟨h1, h2⟩ := mix_inj (num2_lt b) (num2_lt b') h
      have hj : j < 1 := hj
      have hj' : j' < 1 := hj'
      exact ⟨h1, num2_inj h2, by omega⟩
    · exact remote_sym fun p b q hp h => grid_sym2 hx hy hp h
  · refine matched_fields (N := (createPatches2 npx npy).length) ⟨?_, ?_, b2_opp_opp, ho.1, ho.2⟩
    · intro p b j p' b' j' hj hj' h
      have h : guardTag 8 nattrs p (num2 b) j = guardTag 8 nattrs p' (num2 b') j' := h
      rw [guardTag_eq, guardTag_eq] at h
      obtain ⟨h1, h2, h3⟩ := particleTag_inj (num2_lt b) (num2_lt b') hj hj' h
      exact ⟨h1, num2_inj h2, h3⟩
    · exact remote_sym fun p b q hp h => grid_sym2 hx hy hp h

/-- **C29, fields in 3D.** -/
theorem field_messages3 {npx npy npz : Nat} {bx by' bz : AxisBC} (hx : bx.Paired) (hy : by'.Paired)
    (hz : bz.Paired) (rk : Nat → Nat) {order : Nat → List (Nat × B3)}
    (ho : Covers (createPatches3 npx npy npz).length rk order) (nattrs : Nat) :
    Matched (currents3 rk (gridNbr3 npx npy npz bx by' bz) order).fieldSends
      (currents3 rk (gridNbr3 npx npy npz bx by' bz) order).fieldRecvs ∧
    Matched (guards3 rk (gridNbr3 npx npy npz bx by' bz) order nattrs).fieldSends
      (guards3 rk (gridNbr3 npx npy npz bx by' bz) order nattrs).fieldRecvs := by
  constructor
  · refine matched_fields (N := (createPatches3 npx npy npz).length) ⟨?_, ?_, b3_opp_opp, ho.1, ho.2⟩
    · intro p b j p' b' j' hj hj' h
      obtain ⟨h1, h2⟩ := mix_inj (num3_lt b) (num3_lt b') h
      have hj : j < 1 := hj
      have hj' : j' < 1 := hj'
      exact ⟨h1, num3_inj h2, by omega⟩
    · exact remote_sym fun p b q hp h => grid_sym3 hx hy hz hp h
  · refine matched_fields (N := (createPatches3 npx npy npz).length) ⟨?_, ?_, b3_opp_opp, ho.1, ho.2⟩
    · intro p b j p' b' j' hj hj' h
      have h : guardTag 26 nattrs p (num3 b) j = guardTag 26 nattrs p' (num3 b') j' := h
      rw [guardTag_eq, guardTag_eq] at h
      obtain ⟨h1, h2, h3⟩ := particleTag_inj (num3_lt b) (num3_lt b') hj hj' h
      exact ⟨h1, num3_inj h2, h3⟩
    · exact remote_sym fun p b q hp h => grid_sym3 hx hy hz hp h

/-- **C29, all messages are posted (2D).** For each remote neighbour of each patch and each species, the number
of leaving particles is sent to the rank of that neighbour, and the particles too when there are any. -/
theorem particles_posted2 (rk : Nat → Nat) {nbr : Nat → B2 → Option Nat} {N : Nat}
    {order : Nat → List (Nat × B2)} (ho : Covers N rk order) (nspec : Nat) (out : Nat → B2 → Nat → Nat)
    {p q j : Nat} {b : B2} (hp : p < N) (hq : nbr p b = some q) (hr : rk q ≠ rk p) (hj : j < nspec) :
    ∃ t, .count p b j ∈ channel ((particles2 rk nbr order nspec).particleSends out (rk p)) (rk q) t ∧
      (out p b j > 0 →
        .data p b j ∈ channel ((particles2 rk nbr order nspec).particleSends out (rk p)) (rk q) t) := by
  have hm : (p, b, q) ∈ (particles2 rk nbr order nspec).remote (rk p) := by
    unfold Exchange.remote
    rw [List.mem_filterMap]
    refine ⟨(p, b), (ho.1 _ _ _).mpr ⟨hp, rfl⟩, ?_⟩
    show (remoteNbr rk nbr p b).map _ = _
    rw [remoteNbr_some.mpr ⟨hq, hr⟩]; rfl
  refine ⟨particleTag 8 nspec p (num2 b) j, ?_, fun hout => ?_⟩
  · unfold channel Exchange.particleSends
    rw [List.mem_map]
    refine ⟨(particles2 rk nbr order nspec).sendPost .count j (p, b, q), List.mem_filter.mpr ⟨?_, ?_⟩, rfl⟩
    · rw [List.mem_flatMap]
      exact ⟨j, List.mem_range.mpr hj, List.mem_append_left _ (List.mem_map.mpr ⟨_, hm, rfl⟩)⟩
    · exact decide_eq_true ⟨rfl, rfl⟩
  · unfold channel Exchange.particleSends
    rw [List.mem_map]
    refine ⟨(particles2 rk nbr order nspec).sendPost .data j (p, b, q), List.mem_filter.mpr ⟨?_, ?_⟩, rfl⟩
    · rw [List.mem_flatMap]
      refine ⟨j, List.mem_range.mpr hj, List.mem_append_right _ (List.mem_map.mpr ⟨_, List.mem_filter.mpr ⟨hm, ?_⟩, rfl⟩)⟩
      exact decide_eq_true hout
    · exact decide_eq_true ⟨rfl, rfl⟩

/-- **C29, tag bound.** When the check before a particle exchange lets a rank pass, no tag it posts, built from
any own or neighbour patch index, exceeds the bound of the MPI library. -/
theorem particle_tags_checked {NB nspec ub : Nat} {indices : List Nat} (h : checkTagUb NB nspec ub indices = false)
    {p b j : Nat} (hp : p ∈ indices) (hb : b < NB) (hj : j < nspec) : particleTag NB nspec p b j ≤ ub := by
  have h := of_decide_eq_false h
  have hm := (foldl_max_ge indices 0).2 p hp
  unfold particleTag
  have h1 : p * NB + b ≤ indices.foldl max 0 * NB + (NB - 1) := by
    have := Nat.mul_le_mul_right NB hm
    omega
  have := Nat.mul_le_mul_right nspec h1
  omega

/-- **C29 fails for field tags on large grids.** Only the particle exchange checks the bound: a grid with
patch indices up to 4000 and one species passes the check for the smallest bound MPI guarantees, but the guard
exchange of six attributes uses larger tags. -/
theorem field_tags_unchecked_fails :
    checkTagUb 8 1 32767 (List.range 4001) = false ∧
      ∃ p ∈ List.range 4001, ∃ b < 8, ∃ j < 6, guardTag 8 6 p b j > 32767 := by
  refine ⟨?_, 4000, by simp, 0, by decide, 0, by decide, by decide⟩
  have h : ∀ n, (List.range (n + 1)).foldl max 0 = n := by
    intro n
    induction n with
    | zero => rfl
    | succ n ih => rw [List.range_succ, List.foldl_append, ih]; simp
  have : (List.range 4001).foldl max 0 = 4000 := h 4000
  unfold checkTagUb
  rw [this]
  decide

/-- the patches of the grid in their order, all boundaries -/
def plainOrder (N : Nat) (rk : Nat → Nat) (r : Nat) : List (Nat × B2) :=
  ((List.range N).filter fun p => decide (rk p = r)).flatMap fun p => B2.all.map fun b => (p, b)

theorem plainOrder_covers (N : Nat) (rk : Nat → Nat) : Covers N rk (plainOrder N rk) := by
  constructor
  · intro r p b
    unfold plainOrder
    have hb : b ∈ B2.all := by cases b <;> decide
    simp [List.mem_flatMap, List.mem_map, hb]
  · intro r
    unfold plainOrder
    rw [List.nodup_flatMap]
    refine ⟨?_, ?_⟩
    · intro p _
      exact List.Nodup.map (fun a b h => by simpa using h) (by decide)
    · have : ((List.range N).filter fun p => decide (rk p = r)).Nodup := List.nodup_range.filter _
      refine this.imp ?_
      intro a b hab
      rw [Function.onFun, List.disjoint_left]
      intro e h1 h2
      obtain ⟨_, _, e1⟩ := List.mem_map.mp h1
      obtain ⟨_, _, e2⟩ := List.mem_map.mp h2
      rw [← e1] at e2
      exact hab (congrArg Prod.fst e2).symm

/-- the hypotheses are met, and the channels are not empty: on 3×2 patches periodic in x, patch 0 of rank 0
sends its two messages of species 1 across `xmin` to patch 2 of rank 1 under one tag, in order -/
example : Covers (createPatches2 3 2).length (fun p => p % 3 / 2) (plainOrder 6 fun p => p % 3 / 2) ∧
    channel ((particles2 (fun p => p % 3 / 2) (gridNbr2 3 2 ⟨.periodic, .periodic⟩ ⟨.pml, .pml⟩)
      (plainOrder 6 fun p => p % 3 / 2) 2).particleSends (fun _ _ _ => 5) 0) 1 (particleTag 8 2 0 0 1) =
      [.count 0 .xmin 1, .data 0 .xmin 1] :=
  ⟨plainOrder_covers 6 _, by decide +kernel⟩

end Verif.Tags
