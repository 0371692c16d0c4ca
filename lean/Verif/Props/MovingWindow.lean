import Verif.Model.MovingWindow
import Verif.Proofs.Neighbors
import Verif.Props.Fill
import Mathlib.Data.List.Nodup
import Mathlib.Tactic.Linarith
import Mathlib.Tactic.Ring
import Mathlib.Tactic.FieldSimp
import Mathlib.Tactic.NormNum
/-!
# C50, C51 — the moving window
-/
namespace Verif.MovingWindow
open Verif.Neighbors

/-! ## Specification -/

/-- all points of the grid of patches -/
def grid (npx npy npz : Nat) : List (Nat × Nat × Nat) :=
  (List.range npz).flatMap fun k => (List.range npy).flatMap fun j => (List.range npx).map fun i => (i, j, k)

def WPatch.coord (p : WPatch) : Nat × Nat × Nat := (p.ix, p.iy, p.iz)

/-- a patch stands where its grid position says, in a window that has moved by `s` patches: its corner, its axis, the corner and
the axis of its fields (with `ng` guard cells on either side, the lower ones stored at the end) -/
structure Placed (W : Cfg) (ng : Nat) (s : ℤ) (p : WPatch) : Prop where
  corner : p.x0 = ((p.ix : ℤ) + s : ℤ) * W.Lp
  axis : ∀ j : Nat, p.xaxis j = p.x0 + j * W.dx
  fcorner : p.fx0 = p.x0
  faxis : ∀ j : Nat, (j < W.nxpp + ng → p.fxaxis j = p.x0 + j * W.dx) ∧
    (∀ g, 1 ≤ g → g ≤ ng → j = W.nxpp + 2 * ng - g → p.fxaxis j = p.x0 - g * W.dx)

/-- how far the user asked the window to move: the sum of velocity times time step over the calls from the start time on -/
def motion (W : Cfg) (start : ℚ) (l : List (ℚ × ℚ)) : ℚ := ((l.filter fun a => decide (start ≤ a.1)).map fun a => a.2 * W.dt).sum

/-! ## Proofs -/

theorem mem_grid {npx npy npz : Nat} {c : Nat × Nat × Nat} : c ∈ grid npx npy npz ↔ c.1 < npx ∧ c.2.1 < npy ∧ c.2.2 < npz := by
  obtain ⟨i, j, k⟩ := c
  simp only [grid, List.mem_flatMap, List.mem_range, List.mem_map, Prod.mk.injEq]
  constructor
  · rintro ⟨k', hk, j', hj, i', hi, rfl, rfl, rfl⟩; exact ⟨hi, hj, hk⟩
  · rintro ⟨hi, hj, hk⟩; exact ⟨k, hk, j, hj, i, hi, rfl, rfl, rfl⟩

theorem nodup_grid (npx npy npz : Nat) : (grid npx npy npz).Nodup := by
  unfold grid
  rw [List.nodup_flatMap]
  refine ⟨fun k _ => ?_, ?_⟩
  · rw [List.nodup_flatMap]
    refine ⟨fun j _ => ?_, ?_⟩
    · refine List.Nodup.map ?_ List.nodup_range
      intro a b h; simpa using h
    · refine List.Nodup.pairwise_of_forall_ne List.nodup_range ?_
      intro a _ b _ hab x hx hx'
      obtain ⟨i, _, rfl⟩ := List.mem_map.mp hx
      obtain ⟨i', _, h⟩ := List.mem_map.mp hx'
      simp only [Prod.mk.injEq] at h
      exact hab h.2.1.symm
  · refine List.Nodup.pairwise_of_forall_ne List.nodup_range ?_
    intro a _ b _ hab x hx hx'
    obtain ⟨j, _, hx⟩ := List.mem_flatMap.mp hx
    obtain ⟨i, _, rfl⟩ := List.mem_map.mp hx
    obtain ⟨j', _, hx'⟩ := List.mem_flatMap.mp hx'
    obtain ⟨i', _, h⟩ := List.mem_map.mp hx'
    simp only [Prod.mk.injEq] at h
    exact hab h.2.2.symm

/-- a bijection of the x positions permutes the grid -/
theorem grid_perm {npx npy npz : Nat} (σ τ : Nat → Nat) (h1 : ∀ i, i < npx → σ i < npx) (h2 : ∀ i, i < npx → τ i < npx)
    (h3 : ∀ i, i < npx → σ (τ i) = i) (h4 : ∀ i, i < npx → τ (σ i) = i) :
    ((grid npx npy npz).map fun c => (σ c.1, c.2.1, c.2.2)).Perm (grid npx npy npz) := by
  rw [List.perm_ext_iff_of_nodup _ (nodup_grid _ _ _)]
  · rintro ⟨i, j, k⟩
    rw [List.mem_map, mem_grid]
    constructor
    · rintro ⟨⟨i', j', k'⟩, hc, h⟩
      simp only [Prod.mk.injEq] at h
      obtain ⟨rfl, rfl, rfl⟩ := h
      rw [mem_grid] at hc
      exact ⟨h1 _ hc.1, hc.2⟩
    · rintro ⟨hi, hj, hk⟩
      exact ⟨(τ i, j, k), mem_grid.mpr ⟨h2 i hi, hj, hk⟩, by simp only [h3 i hi]⟩
  · refine List.Nodup.map_on ?_ (nodup_grid _ _ _)
    rintro ⟨i, j, k⟩ hc ⟨i', j', k'⟩ hc' h
    rw [mem_grid] at hc hc'
    simp only [Prod.mk.injEq] at h ⊢
    refine ⟨?_, h.2⟩
    rw [← h4 i hc.1, ← h4 i' hc'.1, h.1]

theorem perm_after {npx npy npz : Nat} {l : List WPatch} (hl : (l.map WPatch.coord).Perm (grid npx npy npz)) (f : WPatch → WPatch)
    (σ τ : Nat → Nat) (h1 : ∀ i, i < npx → σ i < npx) (h2 : ∀ i, i < npx → τ i < npx)
    (h3 : ∀ i, i < npx → σ (τ i) = i) (h4 : ∀ i, i < npx → τ (σ i) = i)
    (hf : ∀ p ∈ l, (f p).coord = (σ p.ix, p.iy, p.iz)) : ((l.map f).map WPatch.coord).Perm (grid npx npy npz) := by
  have e : (l.map f).map WPatch.coord = (l.map WPatch.coord).map fun c => (σ c.1, c.2.1, c.2.2) := by
    rw [List.map_map, List.map_map]
    exact List.map_congr_left fun p hp => hf p hp
  rw [e]
  exact (hl.map _).trans (grid_perm σ τ h1 h2 h3 h4)

/-- what is true of all ranks together -/
structure Inv (W : Cfg) (ng npy npz : Nat) (idx : List Nat) (s : ℤ) (all : List WPatch) : Prop where
  coords : (all.map WPatch.coord).Perm (grid W.npx npy npz)
  placed : ∀ p ∈ all, Placed W ng s p
  index : all.map WPatch.index = idx

theorem ix_lt {W : Cfg} {npy npz : Nat} {all : List WPatch} (h : (all.map WPatch.coord).Perm (grid W.npx npy npz)) {p : WPatch} (hp : p ∈ all) :
    p.ix < W.npx := (mem_grid.mp (h.mem_iff.mp (List.mem_map.mpr ⟨p, hp, rfl⟩))).1

theorem placed_recycle {W : Cfg} {ng : Nat} {s s' : ℤ} {p : WPatch} (hp : Placed W ng s p) (ix : Nat) (d : ℚ)
    (hd : p.x0 + d = ((ix : ℤ) + s' : ℤ) * W.Lp) : Placed W ng s' (p.recycle ix d) := by
  refine ⟨hd, fun j => ?_, ?_, fun j => ⟨fun hj => ?_, fun g hg hg' hj => ?_⟩⟩
  · show p.xaxis j + d = p.x0 + d + _
    rw [hp.axis]; ring
  · show p.fx0 + d = p.x0 + d
    rw [hp.fcorner]
  · show p.fxaxis j + d = p.x0 + d + _
    rw [(hp.faxis j).1 hj]; ring
  · show p.fxaxis j + d = p.x0 + d - _
    rw [(hp.faxis j).2 g hg hg' hj]; ring

theorem inv_right {W : Cfg} {ng npy npz : Nat} {idx : List Nat} {s : ℤ} {all : List WPatch} (h : Inv W ng npy npz idx s all) :
    Inv W ng npy npz idx (s + 1) (all.map (shiftRight W)) := by
  refine ⟨?_, ?_, ?_⟩
  · refine perm_after h.coords _ (fun i => if i = 0 then W.npx - 1 else i - 1) (fun i => if i = W.npx - 1 then 0 else i + 1) ?_ ?_ ?_ ?_ ?_
    · intro i hi; split <;> omega
    · intro i hi; split <;> omega
    · intro i hi; split <;> (try split) <;> omega
    · intro i hi; split <;> (try split) <;> omega
    · intro p hp
      unfold shiftRight
      by_cases h0 : p.ix = 0
      · rw [if_pos h0, if_pos h0]; rfl
      · rw [if_neg h0, if_neg h0]; rfl
  · intro p' hp'
    obtain ⟨p, hp, rfl⟩ := List.mem_map.mp hp'
    have hlt := ix_lt h.coords hp
    have hpl := h.placed p hp
    unfold shiftRight
    by_cases h0 : p.ix = 0
    · rw [if_pos h0]
      refine placed_recycle hpl _ _ ?_
      rw [hpl.corner, h0]
      unfold Cfg.Lx Cfg.Lp
      have : ((W.npx - 1 : Nat) : ℤ) = (W.npx : ℤ) - 1 := by omega
      rw [this]; push_cast; ring
    · rw [if_neg h0]
      refine ⟨?_, hpl.axis, hpl.fcorner, hpl.faxis⟩
      show p.x0 = _
      rw [hpl.corner]
      congr 2
      show (p.ix : ℤ) + s = ((p.ix - 1 : Nat) : ℤ) + (s + 1)
      omega
  · rw [List.map_map, ← h.index]
    refine List.map_congr_left fun p _ => ?_
    show (shiftRight W p).index = _
    unfold shiftRight
    split <;> rfl

theorem inv_left {W : Cfg} {ng npy npz : Nat} {idx : List Nat} {s : ℤ} {all : List WPatch} (h : Inv W ng npy npz idx s all) :
    Inv W ng npy npz idx (s - 1) (all.map (shiftLeft W)) := by
  refine ⟨?_, ?_, ?_⟩
  · refine perm_after h.coords _ (fun i => if i = W.npx - 1 then 0 else i + 1) (fun i => if i = 0 then W.npx - 1 else i - 1) ?_ ?_ ?_ ?_ ?_
    · intro i hi; split <;> omega
    · intro i hi; split <;> omega
    · intro i hi; split <;> (try split) <;> omega
    · intro i hi; split <;> (try split) <;> omega
    · intro p hp
      unfold shiftLeft
      by_cases h0 : p.ix = W.npx - 1
      · rw [if_pos h0, if_pos h0]; rfl
      · rw [if_neg h0, if_neg h0]; rfl
  · intro p' hp'
    obtain ⟨p, hp, rfl⟩ := List.mem_map.mp hp'
    have hlt := ix_lt h.coords hp
    have hpl := h.placed p hp
    unfold shiftLeft
    by_cases h0 : p.ix = W.npx - 1
    · rw [if_pos h0]
      refine placed_recycle hpl _ _ ?_
      rw [hpl.corner, h0]
      unfold Cfg.Lx Cfg.Lp
      have : ((W.npx - 1 : Nat) : ℤ) = (W.npx : ℤ) - 1 := by omega
      rw [this]; push_cast; ring
    · rw [if_neg h0]
      refine ⟨?_, hpl.axis, hpl.fcorner, hpl.faxis⟩
      show p.x0 = _
      rw [hpl.corner]
      congr 2
      show (p.ix : ℤ) + s = ((p.ix + 1 : Nat) : ℤ) + (s - 1)
      omega
  · rw [List.map_map, ← h.index]
    refine List.map_congr_left fun p _ => ?_
    show (shiftLeft W p).index = _
    unfold shiftLeft
    split <;> rfl

theorem inv_pml {W : Cfg} {ng npy npz : Nat} {idx : List Nat} {s : ℤ} {all : List WPatch} (h : Inv W ng npy npz idx s all) :
    Inv W ng npy npz idx s (all.map fun p => { p with pmlx := false }) := by
  refine ⟨?_, ?_, ?_⟩
  · rw [List.map_map]; exact h.coords
  · intro p' hp'
    obtain ⟨p, hp, rfl⟩ := List.mem_map.mp hp'
    have hpl := h.placed p hp
    exact ⟨hpl.corner, hpl.axis, hpl.fcorner, hpl.faxis⟩
  · rw [List.map_map]; exact h.index

/-- the counters of a callback object after the calls: they do not depend on the patches -/
structure Ctr where
  start : Option ℚ
  total : Option ℚ
  this : Option ℚ
  num : Nat

def WinSt.ctr (s : WinSt) : Ctr := ⟨s.start, s.total, s.this, s.num⟩

theorem call_ctr (W : Cfg) (t v : ℚ) (a b : WinSt) (h : a.ctr = b.ctr) : (call W t v a).ctr = (call W t v b).ctr := by
  obtain ⟨a1, a2, a3, a4, a5⟩ := a
  obtain ⟨b1, b2, b3, b4, b5⟩ := b
  simp only [WinSt.ctr, Ctr.mk.injEq] at h
  obtain ⟨rfl, rfl, rfl, rfl⟩ := h
  unfold call WinSt.ctr
  dsimp only
  split
  · rfl
  · split
    · rfl
    · split <;> rfl

/-- the patches of all ranks after one call, and the counter -/
theorem call_inv {W : Cfg} {ng npy npz : Nat} {idx : List Nat} {s : ℤ} (ranks : List WinSt) (k : Ctr)
    (hk : ∀ r ∈ ranks, r.ctr = k) (h : Inv W ng npy npz idx s (ranks.flatMap (·.patches))) (t v : ℚ) :
    ∃ (k' : Ctr) (s' : ℤ), (∀ r ∈ ranks.map (call W t v), r.ctr = k') ∧
      Inv W ng npy npz idx s' ((ranks.map (call W t v)).flatMap (·.patches)) ∧
      k'.start = some (k.start.getD (W.Lx / W.c)) ∧
      ((t < k.start.getD (W.Lx / W.c) ∧ s' = s ∧ k'.this = some (k.this.getD W.Lp)) ∨
       (k.start.getD (W.Lx / W.c) ≤ t ∧
        ((W.Lp ≤ k.this.getD W.Lp + v * W.dt ∧ s' = s + 1 ∧ k'.this = some (k.this.getD W.Lp + v * W.dt - W.Lp)) ∨
         (k.this.getD W.Lp + v * W.dt < W.Lp ∧ k.this.getD W.Lp + v * W.dt ≤ -W.Lp ∧ s' = s - 1 ∧
            k'.this = some (k.this.getD W.Lp + v * W.dt + W.Lp)) ∨
         (k.this.getD W.Lp + v * W.dt < W.Lp ∧ -W.Lp < k.this.getD W.Lp + v * W.dt ∧ s' = s ∧
            k'.this = some (k.this.getD W.Lp + v * W.dt))))) := by
  have gen : ∀ (f : WPatch → WPatch) (s' : ℤ), (∀ r ∈ ranks, (call W t v r).patches = r.patches.map f) →
      Inv W ng npy npz idx s' ((ranks.flatMap (·.patches)).map f) →
      Inv W ng npy npz idx s' ((ranks.map (call W t v)).flatMap (·.patches)) := by
    intro f s' hf hi
    have e : (ranks.map (call W t v)).flatMap (·.patches) = (ranks.flatMap (·.patches)).map f := by
      rw [List.flatMap_map, List.map_flatMap]
      exact List.flatMap_congr fun r hr => hf r hr
    rw [e]; exact hi
  have hctr : ∀ r ∈ ranks, ∀ r' : WinSt, r'.ctr = k → (call W t v r).ctr = (call W t v r').ctr := fun r hr r' hr' =>
    call_ctr W t v r r' ((hk r hr).trans hr'.symm)
  let r0 : WinSt := ⟨k.start, k.total, k.this, k.num, []⟩
  have hr0 : r0.ctr = k := rfl
  have hfields : ∀ r ∈ ranks, r.start = k.start ∧ r.this = k.this ∧ r.num = k.num := by
    intro r hr
    have := hk r hr
    rw [← this]
    exact ⟨rfl, rfl, rfl⟩
  refine ⟨(call W t v r0).ctr, ?_⟩
  have h1 : ∀ r ∈ ranks.map (call W t v), r.ctr = (call W t v r0).ctr := by
    intro r' hr'
    obtain ⟨r, hr, rfl⟩ := List.mem_map.mp hr'
    exact hctr r hr r0 hr0
  -- the patches with or without the x layers
  have hpml : ∃ g : WPatch → WPatch, (∀ r ∈ ranks, (if r.num = 0 then r.patches.map fun p => { p with pmlx := false } else r.patches) = r.patches.map g) ∧
      Inv W ng npy npz idx s ((ranks.flatMap (·.patches)).map g) := by
    by_cases hn : k.num = 0
    · refine ⟨fun p => { p with pmlx := false }, fun r hr => ?_, inv_pml h⟩
      rw [if_pos ((hfields r hr).2.2.trans hn)]
    · refine ⟨id, fun r hr => ?_, by rw [List.map_id]; exact h⟩
      rw [if_neg (fun hh => hn ((hfields r hr).2.2.symm.trans hh)), List.map_id]
  obtain ⟨g, hg, hgi⟩ := hpml
  by_cases ht : t < k.start.getD (W.Lx / W.c)
  · refine ⟨s, h1, gen id s (fun r hr => ?_) (by rw [List.map_id]; exact h), ?_, Or.inl ⟨ht, rfl, ?_⟩⟩
    · obtain ⟨e1, e2, e3⟩ := hfields r hr
      unfold call
      dsimp only
      rw [e1, if_pos ht, List.map_id]
    · show (call W t v r0).start = _
      unfold call
      dsimp only
      rw [if_pos ht]
    · show (call W t v r0).this = _
      unfold call
      dsimp only
      rw [if_pos ht]
  · have ht' := not_lt.mp ht
    by_cases hR : W.Lp ≤ k.this.getD W.Lp + v * W.dt
    · refine ⟨s + 1, h1, gen (fun p => shiftRight W (g p)) _ (fun r hr => ?_) (by
        have := inv_right hgi
        rw [List.map_map] at this
        exact this), ?_,
        Or.inr ⟨ht', Or.inl ⟨hR, rfl, ?_⟩⟩⟩
      · obtain ⟨e1, e2, e3⟩ := hfields r hr
        unfold call
        dsimp only
        rw [e1, e2, if_neg ht, if_pos hR, hg r hr]
        dsimp only
        rw [List.map_map]; rfl
      · show (call W t v r0).start = _
        unfold call
        dsimp only
        rw [if_neg ht, if_pos hR]
      · show (call W t v r0).this = _
        unfold call
        dsimp only
        rw [if_neg ht, if_pos hR]
    · by_cases hL : k.this.getD W.Lp + v * W.dt ≤ -W.Lp
      · refine ⟨s - 1, h1, gen (fun p => shiftLeft W (g p)) _ (fun r hr => ?_) (by
        have := inv_left hgi
        rw [List.map_map] at this
        exact this), ?_,
          Or.inr ⟨ht', Or.inr (Or.inl ⟨not_le.mp hR, hL, rfl, ?_⟩)⟩⟩
        · obtain ⟨e1, e2, e3⟩ := hfields r hr
          unfold call
          dsimp only
          rw [e1, e2, if_neg ht, if_neg hR, if_pos hL, hg r hr]
          dsimp only
          rw [List.map_map]; rfl
        · show (call W t v r0).start = _
          unfold call
          dsimp only
          rw [if_neg ht, if_neg hR, if_pos hL]
        · show (call W t v r0).this = _
          unfold call
          dsimp only
          rw [if_neg ht, if_neg hR, if_pos hL]
      · refine ⟨s, h1, gen g _ (fun r hr => ?_) hgi, ?_, Or.inr ⟨ht', Or.inr (Or.inr ⟨not_le.mp hR, not_le.mp hL, rfl, ?_⟩)⟩⟩
        · obtain ⟨e1, e2, e3⟩ := hfields r hr
          unfold call
          dsimp only
          rw [e1, e2, if_neg ht, if_neg hR, if_neg hL, hg r hr]
        · show (call W t v r0).start = _
          unfold call
          dsimp only
          rw [if_neg ht, if_neg hR, if_neg hL]
        · show (call W t v r0).this = _
          unfold call
          dsimp only
          rw [if_neg ht, if_neg hR, if_neg hL]

theorem calls_snoc (W : Cfg) (l : List (ℚ × ℚ)) (a : ℚ × ℚ) (s : WinSt) : calls W (l ++ [a]) s = call W a.1 a.2 (calls W l s) := by
  unfold calls; rw [List.foldl_append]; rfl

theorem motion_snoc (W : Cfg) (st : ℚ) (l : List (ℚ × ℚ)) (a : ℚ × ℚ) :
    motion W st (l ++ [a]) = motion W st l + if st ≤ a.1 then a.2 * W.dt else 0 := by
  unfold motion
  rw [List.filter_append, List.map_append, List.sum_append]
  congr 1
  by_cases h : st ≤ a.1 <;> simp [h]

theorem initial_placed (W : Cfg) (hn : 0 < W.npx) (ng : Nat) (f : Nat → ℚ) (index ix iy iz : Nat) (pml : Bool) :
    Placed W ng 0 (initial W ng f index ix iy iz pml) := by
  have hn' : (W.npx : ℚ) ≠ 0 := by exact_mod_cast hn.ne'
  refine ⟨?_, fun j => ?_, rfl, fun j => ⟨fun hj => ?_, fun g hg hg' hj => ?_⟩⟩
  · show (ix : ℚ) * W.Lx / W.npx = ((ix : ℤ) + 0 : ℤ) * W.Lp
    unfold Cfg.Lx Cfg.Lp
    push_cast
    field_simp
    ring
  · show (j : ℚ) * W.dx + _ = _ + _; ring_nf; rfl
  · show (if j < W.nxpp + ng then (j : ℚ) else _) * W.dx + _ = (initial W ng f index ix iy iz pml).x0 + _
    rw [if_pos hj, add_comm]; rfl
  · show (if j < W.nxpp + ng then (j : ℚ) else (j : ℚ) - (W.nxpp + 2 * ng : Nat)) * W.dx + _ = (initial W ng f index ix iy iz pml).x0 - _
    rw [if_neg (by omega)]
    have : (j : ℚ) = (W.nxpp + 2 * ng : Nat) - g := by rw [hj, Nat.cast_sub (by omega)]
    rw [this]
    show _ + (ix : ℚ) * W.Lx / W.npx = (ix : ℚ) * W.Lx / W.npx - _
    ring

/-- the state of all ranks after any calls -/
theorem calls_inv {W : Cfg} (hn : 0 < W.npx) (hLp : 0 < W.Lp) {ng npy npz : Nat} {idx : List Nat} (start : Option ℚ) (ranks : List (List WPatch))
    (h : Inv W ng npy npz idx 0 ranks.flatten) (l : List (ℚ × ℚ)) :
    ∃ (k : Ctr) (s : ℤ), (∀ r ∈ ranks.map fun ps => calls W l (fresh start ps), r.ctr = k) ∧
      Inv W ng npy npz idx s ((ranks.map fun ps => calls W l (fresh start ps)).flatMap (·.patches)) ∧
      k.start.getD (W.Lx / W.c) = start.getD (W.Lx / W.c) ∧
      (s : ℚ) * W.Lp = motion W (start.getD (W.Lx / W.c)) l + W.Lp - k.this.getD W.Lp ∧
      ((∀ a ∈ l, |a.2 * W.dt| < W.Lp) → -W.Lp < k.this.getD W.Lp ∧ k.this.getD W.Lp ≤ W.Lp) ∧
      ((∀ a ∈ l, 0 ≤ a.2 * W.dt ∧ a.2 * W.dt < W.Lp) → 0 ≤ k.this.getD W.Lp) := by
  induction l using List.reverseRecOn with
  | nil =>
    refine ⟨⟨start, none, none, 0⟩, 0, ?_, ?_, rfl, ?_, fun _ => ⟨by simp [hLp], by simp⟩, fun _ => by simp [hLp.le]⟩
    · intro r hr
      obtain ⟨ps, _, rfl⟩ := List.mem_map.mp hr
      rfl
    · have e : (ranks.map fun ps => calls W [] (fresh start ps)).flatMap (·.patches) = ranks.flatten := by
        rw [List.flatMap_map]
        show ranks.flatMap (fun ps => ps) = _
        rw [List.flatMap_id']
      rw [e]; exact h
    · simp [motion]
  | append_singleton l a ih =>
    obtain ⟨k, s, h1, h2, h3, h4, h5, h6⟩ := ih
    obtain ⟨k', s', g1, g2, g3, g4⟩ := call_inv _ k h1 h2 a.1 a.2
    have e : (ranks.map fun ps => calls W l (fresh start ps)).map (call W a.1 a.2) = ranks.map fun ps => calls W (l ++ [a]) (fresh start ps) := by
      rw [List.map_map]
      exact List.map_congr_left fun ps _ => (calls_snoc W l a _).symm
    rw [e] at g1 g2
    rw [h3] at g3 g4
    refine ⟨k', s', g1, g2, by rw [g3]; rfl, ?_, ?_, ?_⟩
    · rw [motion_snoc]
      rcases g4 with ⟨ht, rfl, e'⟩ | ⟨ht, ⟨_, rfl, e'⟩ | ⟨_, _, rfl, e'⟩ | ⟨_, _, rfl, e'⟩⟩
      · rw [if_neg (not_le.mpr ht), e', Option.getD_some]; linarith
      · rw [if_pos ht, e', Option.getD_some]; push_cast; linarith
      · rw [if_pos ht, e', Option.getD_some]; push_cast; linarith
      · rw [if_pos ht, e', Option.getD_some]; linarith
    · intro hl
      have hlast := hl a (by simp)
      rw [abs_lt] at hlast
      obtain ⟨i1, i2⟩ := h5 fun b hb => hl b (by simp [hb])
      rcases g4 with ⟨ht, rfl, e'⟩ | ⟨ht, ⟨c1, rfl, e'⟩ | ⟨c1, c2, rfl, e'⟩ | ⟨c1, c2, rfl, e'⟩⟩ <;> rw [e', Option.getD_some] <;>
        constructor <;> linarith [hlast.1, hlast.2]
    · intro hl
      have hlast := hl a (by simp)
      have i1 := h6 fun b hb => hl b (by simp [hb])
      rcases g4 with ⟨ht, rfl, e'⟩ | ⟨ht, ⟨c1, rfl, e'⟩ | ⟨c1, c2, rfl, e'⟩ | ⟨c1, c2, rfl, e'⟩⟩ <;> rw [e', Option.getD_some] <;>
        linarith [hlast.1, hlast.2]

/-! ## The properties -/

/-- the patches of all ranks before the run: every grid position once, in any order and on any ranks -/
structure Start (W : Cfg) (ng npy npz : Nat) (ranks : List (List WPatch)) : Prop where
  built : ∀ p ∈ ranks.flatten, ∃ f index ix iy iz pml, p = initial W ng f index ix iy iz pml
  coords : (ranks.flatten.map WPatch.coord).Perm (grid W.npx npy npz)

theorem Start.inv {W : Cfg} {ng npy npz : Nat} {ranks : List (List WPatch)} (hn : 0 < W.npx) (h : Start W ng npy npz ranks) :
    Inv W ng npy npz (ranks.flatten.map WPatch.index) 0 ranks.flatten := by
  refine ⟨h.coords, fun p hp => ?_, rfl⟩
  obtain ⟨f, index, ix, iy, iz, pml, rfl⟩ := h.built p hp
  exact initial_placed W hn ng f index ix iy iz pml

/-- **C50, partial.** However the patches are distributed over ranks, whatever the velocities and times of the calls: the grid positions of
all patches together are again every position once, no patch changes its index, and there is one offset, the same for all ranks, such that
every patch and its fields stand at their grid position in the window shifted by that many patches. If no call moves the window by a whole
patch or more, the offset in length is ahead of the requested motion by at least 0 and less than two patches; if
in addition no call moves it backward, it is within one patch of the requested motion.

Missing: within one patch for backward motion, which is false (`window_backward_fails`). -/
theorem moving_window_partial {W : Cfg} (hn : 0 < W.npx) (hLp : 0 < W.Lp) {ng npy npz : Nat} (start : Option ℚ) (ranks : List (List WPatch))
    (h : Start W ng npy npz ranks) (l : List (ℚ × ℚ)) :
    let all := (ranks.map fun ps => calls W l (fresh start ps)).flatMap (·.patches)
    let asked := motion W (start.getD (W.Lx / W.c)) l
    (all.map WPatch.coord).Perm (grid W.npx npy npz) ∧ all.map WPatch.index = ranks.flatten.map WPatch.index ∧
    ∃ s : ℤ, (∀ p ∈ all, Placed W ng s p) ∧
      ((∀ a ∈ l, |a.2 * W.dt| < W.Lp) → 0 ≤ s * W.Lp - asked ∧ s * W.Lp - asked < 2 * W.Lp) ∧
      ((∀ a ∈ l, 0 ≤ a.2 * W.dt ∧ a.2 * W.dt < W.Lp) → |s * W.Lp - asked| ≤ W.Lp) := by
  obtain ⟨k, s, _, h2, _, h4, h5, h6⟩ := calls_inv hn hLp start ranks (h.inv hn) l
  refine ⟨h2.coords, h2.index, s, h2.placed, fun hl => ?_, fun hl => ?_⟩
  · obtain ⟨i1, i2⟩ := h5 hl
    constructor <;> linarith
  · obtain ⟨i1, i2⟩ := h5 fun a ha => by
      have := hl a ha
      rw [abs_lt]; constructor <;> linarith [this.1, this.2]
    have i3 := h6 hl
    rw [abs_le]; constructor <;> linarith

theorem coordInj_of {npx npy npz : Nat} {all : List WPatch} (h : (all.map WPatch.coord).Perm (grid npx npy npz)) :
    ∀ p ∈ all, ∀ q ∈ all, p.coord = q.coord → p = q :=
  fun _ hp _ hq e => List.inj_on_of_nodup_map ((h.nodup_iff).mpr (nodup_grid _ _ _)) hp hq e

/-- **C50, neighbours (2D).** After any calls the neighbour entries computed from the gathered patches are those of the patches that are now
adjacent in the grid. -/
theorem window_neighbours2 {W : Cfg} (hn : 0 < W.npx) (hLp : 0 < W.Lp) {ng npy : Nat} (start : Option ℚ) (ranks : List (List WPatch))
    (h : Start W ng npy 1 ranks) (hidx : (ranks.flatten.map WPatch.index).Nodup) (l : List (ℚ × ℚ))
    {bx by' : AxisBC} (hx : bx.Paired) (hy : by'.Paired) :
    let all := (ranks.map fun ps => calls W l (fresh start ps)).flatMap (·.patches)
    ∀ p ∈ all, ∀ (b : B2) (k : Nat), neighborIndex2 W.npx npy bx by' (all.map fun q => ⟨q.index, q.ix, q.iy⟩) ⟨p.index, p.ix, p.iy⟩ b = some (k : Int) ↔
      ∃ q ∈ all, q.index = k ∧ Adj W.npx bx p.ix b.offset.1 q.ix ∧ Adj npy by' p.iy b.offset.2 q.iy := by
  intro all p hp b k
  obtain ⟨hc, hi, -⟩ := moving_window_partial hn hLp start ranks h l
  have hz : ∀ q ∈ all, q.ix < W.npx ∧ q.iy < npy ∧ q.iz = 0 := fun q hq => by
    have := mem_grid.mp (hc.mem_iff.mp (List.mem_map.mpr ⟨q, hq, rfl⟩))
    exact ⟨this.1, this.2.1, by have h3 : q.iz < 1 := this.2.2; omega⟩
  have hg : Grid2 W.npx npy (all.map fun q => ⟨q.index, q.ix, q.iy⟩) := by
    refine ⟨?_, ?_, ?_⟩
    · intro q' hq'
      obtain ⟨q, hq, rfl⟩ := List.mem_map.mp hq'
      exact ⟨(hz q hq).1, (hz q hq).2.1⟩
    · intro q' hq' r' hr' e1 e2
      obtain ⟨q, hq, rfl⟩ := List.mem_map.mp hq'
      obtain ⟨r, hr, rfl⟩ := List.mem_map.mp hr'
      have : q = r := coordInj_of hc q hq r hr (by
        show (q.ix, q.iy, q.iz) = (r.ix, r.iy, r.iz)
        rw [show q.ix = r.ix from e1, show q.iy = r.iy from e2, (hz q hq).2.2, (hz r hr).2.2])
      rw [this]
    · intro q' hq' r' hr' e1
      obtain ⟨q, hq, rfl⟩ := List.mem_map.mp hq'
      obtain ⟨r, hr, rfl⟩ := List.mem_map.mp hr'
      have : q = r := List.inj_on_of_nodup_map (f := WPatch.index) (by rw [hi]; exact hidx) hq hr e1
      rw [this]
  rw [neighborIndex2_some hx hy hg (List.mem_map.mpr ⟨p, hp, rfl⟩)]
  constructor
  · rintro ⟨q', hq', h1, h2, h3⟩
    obtain ⟨q, hq, rfl⟩ := List.mem_map.mp hq'
    exact ⟨q, hq, h1, h2, h3⟩
  · rintro ⟨q, hq, h1, h2, h3⟩
    exact ⟨_, List.mem_map.mpr ⟨q, hq, rfl⟩, h1, h2, h3⟩

/-- **C50, neighbours (3D).** As in 2D. -/
theorem window_neighbours3 {W : Cfg} (hn : 0 < W.npx) (hLp : 0 < W.Lp) {ng npy npz : Nat} (start : Option ℚ) (ranks : List (List WPatch))
    (h : Start W ng npy npz ranks) (hidx : (ranks.flatten.map WPatch.index).Nodup) (l : List (ℚ × ℚ))
    {bx by' bz : AxisBC} (hx : bx.Paired) (hy : by'.Paired) (hz : bz.Paired) :
    let all := (ranks.map fun ps => calls W l (fresh start ps)).flatMap (·.patches)
    ∀ p ∈ all, ∀ (b : B3) (k : Nat), neighborIndex3 W.npx npy npz bx by' bz (all.map fun q => ⟨q.index, q.ix, q.iy, q.iz⟩) ⟨p.index, p.ix, p.iy, p.iz⟩ b = some (k : Int) ↔
      ∃ q ∈ all, q.index = k ∧ Adj W.npx bx p.ix b.offset.1 q.ix ∧ Adj npy by' p.iy b.offset.2.1 q.iy ∧ Adj npz bz p.iz b.offset.2.2 q.iz := by
  intro all p hp b k
  obtain ⟨hc, hi, -⟩ := moving_window_partial hn hLp start ranks h l
  have hb : ∀ q ∈ all, q.ix < W.npx ∧ q.iy < npy ∧ q.iz < npz := fun q hq => by
    have := mem_grid.mp (hc.mem_iff.mp (List.mem_map.mpr ⟨q, hq, rfl⟩))
    exact this
  have hg : Grid3 W.npx npy npz (all.map fun q => ⟨q.index, q.ix, q.iy, q.iz⟩) := by
    refine ⟨?_, ?_, ?_⟩
    · intro q' hq'
      obtain ⟨q, hq, rfl⟩ := List.mem_map.mp hq'
      exact hb q hq
    · intro q' hq' r' hr' e1 e2 e3
      obtain ⟨q, hq, rfl⟩ := List.mem_map.mp hq'
      obtain ⟨r, hr, rfl⟩ := List.mem_map.mp hr'
      have : q = r := coordInj_of hc q hq r hr (by
        show (q.ix, q.iy, q.iz) = (r.ix, r.iy, r.iz)
        rw [show q.ix = r.ix from e1, show q.iy = r.iy from e2, show q.iz = r.iz from e3])
      rw [this]
    · intro q' hq' r' hr' e1
      obtain ⟨q, hq, rfl⟩ := List.mem_map.mp hq'
      obtain ⟨r, hr, rfl⟩ := List.mem_map.mp hr'
      have : q = r := List.inj_on_of_nodup_map (f := WPatch.index) (by rw [hi]; exact hidx) hq hr e1
      rw [this]
  rw [neighborIndex3_some hx hy hz hg (List.mem_map.mpr ⟨p, hp, rfl⟩)]
  constructor
  · rintro ⟨q', hq', h1, h2, h3⟩
    obtain ⟨q, hq, rfl⟩ := List.mem_map.mp hq'
    exact ⟨q, hq, h1, h2, h3⟩
  · rintro ⟨q, hq, h1, h2, h3⟩
    exact ⟨_, List.mem_map.mpr ⟨q, hq, rfl⟩, h1, h2, h3⟩

/-- **C50 is false for a window that moves backward.** Three calls of half a patch backward each leave every patch where it was, one and a half
patches away from where the window should be. -/
theorem window_backward_fails {W : Cfg} (hLp : 0 < W.Lp) (t0 v : ℚ) (hv : v * W.dt = -(W.Lp / 2)) (ps : List WPatch) :
    motion W t0 [(t0, v), (t0, v), (t0, v)] = -(3 / 2) * W.Lp ∧
    (calls W [(t0, v), (t0, v), (t0, v)] (fresh (some t0) ps)).patches.map WPatch.x0 = ps.map WPatch.x0 := by
  constructor
  · unfold motion
    simp only [List.filter_cons, le_refl, decide_true, if_true, List.filter_nil, List.map_cons, List.map_nil, List.sum_cons, List.sum_nil, hv]
    ring
  · have e1 : call W t0 v (fresh (some t0) ps) = ⟨some t0, some (W.Lp + v * W.dt), some (W.Lp + v * W.dt), 1, ps.map fun p => { p with pmlx := false }⟩ := by
      unfold call fresh
      dsimp only [Option.getD_some, Option.getD_none]
      rw [if_neg (lt_irrefl _), if_neg (by rw [hv]; linarith), if_neg (by rw [hv]; linarith), if_pos rfl]
    have e2 : call W t0 v ⟨some t0, some (W.Lp + v * W.dt), some (W.Lp + v * W.dt), 1, ps.map fun p => { p with pmlx := false }⟩ =
        ⟨some t0, some (W.Lp + v * W.dt + v * W.dt), some (W.Lp + v * W.dt + v * W.dt), 2, ps.map fun p => { p with pmlx := false }⟩ := by
      unfold call
      dsimp only [Option.getD_some]
      rw [if_neg (lt_irrefl _), if_neg (by rw [hv]; linarith), if_neg (by rw [hv]; linarith), if_neg (by decide)]
    have e3 : call W t0 v ⟨some t0, some (W.Lp + v * W.dt + v * W.dt), some (W.Lp + v * W.dt + v * W.dt), 2, ps.map fun p => { p with pmlx := false }⟩ =
        ⟨some t0, some (W.Lp + v * W.dt + v * W.dt + v * W.dt), some (W.Lp + v * W.dt + v * W.dt + v * W.dt), 3, ps.map fun p => { p with pmlx := false }⟩ := by
      unfold call
      dsimp only [Option.getD_some]
      rw [if_neg (lt_irrefl _), if_neg (by rw [hv]; linarith), if_neg (by rw [hv]; linarith), if_neg (by decide)]
    show (call W t0 v (call W t0 v (call W t0 v (fresh (some t0) ps)))).patches.map WPatch.x0 = _
    rw [e1, e2, e3]
    dsimp only
    rw [List.map_map]; rfl

/-- **The window and periodic boundaries do not go together.** After one shift to the right the first patch begins at `Lp` and the last one at
`Lx`. A particle that leaves the first patch to the left goes to the last patch (they are neighbours for periodic boundaries), but
its position is not changed, because the bounds of the domain did not move: it is outside the patch it now belongs to. -/
theorem window_periodic_fails {W : Cfg} (hdx : 0 < W.dx) (hn : 2 ≤ W.npx) (hc : 2 ≤ W.nxpp) (x : ℚ) (h1 : W.Lp - 3 / 2 * W.dx ≤ x) (h2 : x < W.Lp - W.dx / 2)
    (pmin pmax : ℚ) : Verif.Geometry.handlePeriodic (.val x) (-W.dx / 2) (W.Lx - W.dx / 2) pmin pmax W.dx = .val x ∧ x < W.Lx - W.dx / 2 := by
  have hL : 2 * W.Lp ≤ W.Lx := by
    unfold Cfg.Lx Cfg.Lp
    have : (2 : ℚ) ≤ W.npx := by exact_mod_cast hn
    have h0 : (0 : ℚ) ≤ W.nxpp * W.dx := by positivity
    push_cast
    nlinarith
  have hp : 2 * W.dx ≤ W.Lp := by
    unfold Cfg.Lp
    have : (2 : ℚ) ≤ W.nxpp := by exact_mod_cast hc
    nlinarith
  have hx : x < W.Lx - W.dx / 2 := by linarith
  refine ⟨?_, hx⟩
  have a : ¬ x > W.Lx - W.dx / 2 := by linarith
  have b : ¬ x < -W.dx / 2 := by linarith
  unfold Verif.Geometry.handlePeriodic Verif.Geometry.F64.gt Verif.Geometry.F64.lt
  simp only [gt_iff_lt] at a
  simp [a, b]

/-! ### C51 -/

/-- **C51 (2D), partial.** If injection is on and not yet stopped and the species has a density: after the refill the recycled patch holds
exactly the particles of the new region; none is left of the region it left (whose cells are at least one patch to the left), whatever
it held before.
Missing: species without density and windows without injection (`recycled_keeps_fails`). -/
theorem recycled_fresh2_partial (p : Fill.Profile 2) (n : Fin 2 → Nat) (hn : ∀ d, 2 ≤ n d) (h x00 x0 : Fin 2 → ℚ)
    (u : Nat → Nat → Fin 2 → ℚ) (hd : Fill.Draws h u) (hp : ∀ c, Fill.GridPoint n h x0 c → Fill.Accepted p c → 0 < p.ppc c)
    (stop : Option ℚ) (time : ℚ) (hs : ∀ t, stop = some t → time < t) (old : List (Option (Fill.Slot 2))) :
    ∃ a, refill Fill.fillPatch2 true stop time (some p) u (Fill.axes n h x00) (Fill.axes n h x0) old = some a ∧
      Fill.Filled p h (Fill.cells2 (Fill.axes n h x0)) (Fill.count p (Fill.cells2 (Fill.axes n h x0))) a ∧
      ∀ s, some s ∈ a → x0 0 - h 0 / 2 ≤ s.pos 0 ∧ s.pos 0 < x0 0 + n 0 * h 0 - h 0 / 2 := by
  obtain ⟨a, h1, h2⟩ := Fill.fill2_partial p n hn h x00 x0 u hd hp
  refine ⟨a, ?_, h2, fun s hs => ?_⟩
  · unfold refill
    rw [if_neg (by decide), if_neg]
    · exact h1
    · cases stop with
      | none => exact Bool.false_ne_true
      | some t => simpa using hs t rfl
  · obtain ⟨c, hc, _, hin, _⟩ := h2.own s hs
    obtain ⟨i, hi, he⟩ := (Fill.mem_cells2 n h x0 c).mp hc 0
    have := hin 0
    rw [he] at this
    have hpos := hd.pos 0
    have hi' : (i : ℚ) + 1 ≤ n 0 := by exact_mod_cast hi
    have h0 : (0 : ℚ) ≤ i := Nat.cast_nonneg i
    constructor
    · nlinarith [this.1]
    · nlinarith [this.2]

/-- **C51 (3D), partial.** As in 2D. -/
theorem recycled_fresh3_partial (p : Fill.Profile 3) (n : Fin 3 → Nat) (hn : ∀ d, 2 ≤ n d) (h x00 x0 : Fin 3 → ℚ)
    (u : Nat → Nat → Fin 3 → ℚ) (hd : Fill.Draws h u) (hp : ∀ c, Fill.GridPoint n h x0 c → Fill.Accepted p c → 0 < p.ppc c)
    (stop : Option ℚ) (time : ℚ) (hs : ∀ t, stop = some t → time < t) (old : List (Option (Fill.Slot 3))) :
    ∃ a, refill Fill.fillPatch3 true stop time (some p) u (Fill.axes n h x00) (Fill.axes n h x0) old = some a ∧
      Fill.Filled p h (Fill.cells3 (Fill.axes n h x0)) (Fill.count p (Fill.cells3 (Fill.axes n h x0))) a ∧
      ∀ s, some s ∈ a → x0 0 - h 0 / 2 ≤ s.pos 0 ∧ s.pos 0 < x0 0 + n 0 * h 0 - h 0 / 2 := by
  obtain ⟨a, h1, h2⟩ := Fill.fill3_partial p n hn h x00 x0 u hd hp
  refine ⟨a, ?_, h2, fun s hs => ?_⟩
  · unfold refill
    rw [if_neg (by decide), if_neg]
    · exact h1
    · cases stop with
      | none => exact Bool.false_ne_true
      | some t => simpa using hs t rfl
  · obtain ⟨c, hc, _, hin, _⟩ := h2.own s hs
    obtain ⟨i, hi, he⟩ := (Fill.mem_cells3 n h x0 c).mp hc 0
    have := hin 0
    rw [he] at this
    have hpos := hd.pos 0
    have hi' : (i : ℚ) + 1 ≤ n 0 := by exact_mod_cast hi
    have h0 : (0 : ℚ) ≤ i := Nat.cast_nonneg i
    constructor
    · nlinarith [this.1]
    · nlinarith [this.2]

/-- **C51 is false** for a species without density, for a window without injection, and after the end of injection: the recycled patch keeps
all particles it had, and each of them that was in the patch is then outside it, left of its first cell. -/
theorem recycled_keeps_fails {k : Nat} (fill) (inject : Bool) (stop : Option ℚ) (time : ℚ) (dens : Option (Fill.Profile k)) (u ax0 ax)
    (h : inject = false ∨ dens = none ∨ ∃ t, stop = some t ∧ t ≤ time) (old : List (Option (Fill.Slot k))) :
    refill fill inject stop time dens u ax0 ax old = some old ∧
    ∀ (W : Cfg) (p : WPatch) (x : ℚ), 0 < W.npx → 0 < W.dx → p.ix = 0 → x < p.x0 + W.Lp - W.dx / 2 →
      x < (shiftRight W p).x0 - W.dx / 2 := by
  constructor
  · unfold refill
    by_cases hi : inject = false
    · rw [if_pos hi]
    · rw [if_neg hi]
      rcases h with h | h | ⟨t, h, ht⟩
      · exact absurd h hi
      · rw [h]
        exact ite_self _
      · rw [if_pos]
        rw [h]
        simpa using ht
  · intro W p x hn hdx h0 hx
    unfold shiftRight
    rw [if_pos h0]
    show x < p.x0 + W.Lx - W.dx / 2
    have hL : W.Lp ≤ W.Lx := by
      unfold Cfg.Lp Cfg.Lx
      have : (1 : ℚ) ≤ W.npx := by exact_mod_cast hn
      have h0 : (0 : ℚ) ≤ W.nxpp * W.dx := by positivity
      push_cast
      nlinarith
    linarith

/-- the fields of a recycled patch are zero -/
theorem recycled_fields_zero (W : Cfg) (p : WPatch) (h : p.ix = 0) (j : Nat) : (shiftRight W p).field j = 0 := by
  unfold shiftRight
  rw [if_pos h]; rfl

/-! ### Examples -/

def exCfg : Cfg := ⟨3, 4, 1, 1, 1⟩

def exRanks : List (List WPatch) :=
  [[initial exCfg 2 (fun _ => 5) 0 0 0 0 true, initial exCfg 2 (fun _ => 6) 1 1 0 0 false], [initial exCfg 2 (fun _ => 7) 2 2 0 0 true]]

/-- the hypotheses of the theorems: three patches on two ranks -/
example : 0 < exCfg.npx ∧ 0 < exCfg.Lp ∧ Start exCfg 2 1 1 exRanks ∧ (exRanks.flatten.map WPatch.index).Nodup := by
  refine ⟨by decide, by norm_num [Cfg.Lp, exCfg], ⟨?_, ?_⟩, by decide⟩
  · intro p hp
    simp only [exRanks, List.flatten_cons, List.flatten_nil, List.append_nil, List.cons_append, List.nil_append, List.mem_cons,
      List.not_mem_nil, or_false] at hp
    rcases hp with rfl | rfl | rfl <;> exact ⟨_, _, _, _, _, _, rfl⟩
  · have : exRanks.flatten.map WPatch.coord = grid exCfg.npx 1 1 := by decide
    rw [this]

/-- two steps of 3/4 patch forward: the window has moved by two patches, the first shift comes at once -/
example : (calls exCfg [(0, 3), (1, 3)] (fresh (some 0) exRanks.flatten)).patches.map (fun p => (p.index, p.ix, p.x0)) =
    [(0, 1, 12), (1, 2, 16), (2, 0, 8)] := by decide +kernel

end Verif.MovingWindow
