import Verif.BigInt.CompleteMod
import Verif.Gate.CompleteBits

/-!
# Completeness of `select_by_indicator`
-/

set_option autoImplicit false
namespace H2
variable {p : ℕ} [Fact p.Prime] {tbl : ZMod p → Prop} {ext : Cell → ZMod p} {s s' : Ctx p} {n k : ℕ}

theorem oneHot_amoh (n i : ℕ) : AtMostOneHot (oneHot n i : List (ZMod p)) := by
  constructor
  · intro y hy
    simp only [oneHot, List.mem_map] at hy
    obtain ⟨j, -, rfl⟩ := hy
    split <;> simp
  · rw [oneHot, List.pairwise_map]
    refine List.Pairwise.imp ?_ List.pairwise_lt_range
    intro a b hab
    by_cases h : a = i
    · right; rw [if_neg (by omega)]
    · left; rw [if_neg h]

theorem selIndLoop_cmp {as : List (OvInt p)} {ind : List (AV p)} {ys : List (ZMod p)} (ha : ∀ a ∈ as, AvsW ext s a.limbs)
    (hk : ∀ a ∈ as, a.limbs.length = k) (hi : AvsCon ext s ind ys) (hlen : as.length = ind.length) (hoh : AtMostOneHot ys)
    (is : List ℕ) (his : ∀ i ∈ is, i < k) :
    Cmp tbl ext s (selIndLoop as ind is) (fun rs s' => AvsW ext s' rs) := by
  induction is generalizing s with
  | nil => exact Cmp.pure (by simp [AvsW])
  | cons i is ih =>
    have h1 : List.Forall₂ (AvsCon ext s) (as.map OvInt.limbs) ((as.map OvInt.limbs).map (fun l => l.map (at' (hw ext s)))) := by
      rw [List.forall₂_map_right_iff, List.forall₂_same]
      intro l hl
      rw [List.mem_map] at hl
      obtain ⟨a, ha', rfl⟩ := hl
      exact (ha a ha').con
    obtain ⟨c, hc1, hc2⟩ := column_pure (j := i) h1 (by
      intro v hv
      simp only [List.map_map, List.mem_map, Function.comp] at hv
      obtain ⟨a, ha', rfl⟩ := hv
      rw [List.length_map, hk a ha']
      exact his i (by simp))
    have hcl : c.length = ind.length := by
      have := List.Forall₂.length_eq hc2
      simpa [hlen] using this
    show Cmp tbl ext s ((column (as.map OvInt.limbs) i) >>= fun col => _) _
    rw [hc1, pure_bind]
    refine Cmp.bind (selectByIndicator_cmp hc2 hi hcl hoh) fun r s1 e1 hr => ?_
    refine Cmp.bind (ih (s := s1) (fun a h => (ha a h).mono e1) (hi.mono e1) fun j hj => his j (by simp [hj])) fun rs s2 e2 hrs => Cmp.pure ?_
    exact .cons (hr.w.mono e2) hrs

theorem selIndVal_pure {as : List (CrtInt p)} {ind : List (AV p)} {idx : ℕ} {v : ℤ} (acc : ℤ) (off : ℕ) (N : ℕ)
    (hN : off + as.length = N)
    (hi : AvsCon ext s ind ((List.range as.length).map (fun j => if j + off = idx then (1 : ZMod p) else 0)))
    (hv : ∀ a, off ≤ idx → as[idx - off]? = some a → a.value = v) (hacc : idx < off → acc = v) (hidx : idx < N) :
    (selIndVal acc (as.zip ind) : M p ℤ) = pure v := by
  induction as generalizing ind acc off with
  | nil =>
    simp only [List.length_nil, add_zero] at hN
    rw [List.zip_nil_left, selIndVal, hacc (by omega)]
  | cons a as ih =>
    rw [List.length_cons, List.range_succ_eq_map, List.map_cons, List.map_map] at hi
    rcases hi with _ | ⟨h1, h2⟩
    rename_i y ind
    have h2 : AvsCon ext s ind _ := h2
    rw [List.zip_cons_cons, selIndVal]
    have e : (unwrap y.val? : M p (ZMod p)) = pure (if 0 + off = idx then (1 : ZMod p) else 0) := by
      rw [show y.val? = some _ from h1.val]; rfl
    rw [e, pure_bind]
    refine ih _ (off + 1) (by simp at hN; omega) ?_ ?_ ?_
    · convert h2 using 2
      funext j
      simp only [Function.comp, Nat.succ_eq_add_one]
      congr 1
      rw [eq_iff_iff]
      constructor <;> intro <;> omega
    · intro x hx hx2
      refine hv x (by omega) ?_
      rw [show idx - off = (idx - (off + 1)) + 1 by omega, List.getElem?_cons_succ]
      exact hx2
    · intro h
      by_cases h0 : off = idx
      · rw [if_pos (show 0 + off = idx by omega), if_neg one_ne_zero]
        exact hv a (by omega) (by rw [h0, Nat.sub_self]; rfl)
      · rw [if_neg (show ¬ 0 + off = idx by omega), if_pos rfl]
        exact hacc (by omega)

/-- The honest run of `select_by_indicator::crt` succeeds. -/
theorem selIndCrt_cmp {as : List (CrtInt p)} {ind : List (AV p)} {bases : List (ZMod p)} {idx : ℕ} {a : CrtInt p}
    (hs : ∀ a ∈ as, CrtS ext s a) (hk : ∀ a ∈ as, a.trunc.limbs.length = k) (hb : k ≤ bases.length)
    (hi : AvsCon ext s ind (oneHot as.length idx)) (ha : as[idx]? = some a) :
    Cmp tbl ext s (selIndCrt as ind bases) (fun r s' => CrtS ext s' r ∧ r.value = a.value) := by
  have hlen : as.length = ind.length := by
    have := List.Forall₂.length_eq hi; simp [oneHot] at this; exact this.symm
  have hidx : idx < as.length := (List.getElem?_eq_some_iff.1 ha).1
  refine Cmp.assert (by simpa using hlen) ?_
  obtain ⟨a0, as', rfl⟩ : ∃ a0 as', as = a0 :: as' := by
    cases as with
    | nil => simp at hidx
    | cons a0 as' => exact ⟨_, _, rfl⟩
  have h0 : a0.trunc.limbs.length = k := hk a0 (by simp)
  have e : selIndInt ((a0 :: as').map CrtInt.trunc) ind =
      (selIndLoop ((a0 :: as').map CrtInt.trunc) ind (List.range a0.trunc.limbs.length) >>= fun ls =>
        (pure ⟨ls, maxBitsOf ((a0 :: as').map CrtInt.trunc)⟩ : M p (OvInt p))) := rfl
  rw [e, bind_assoc, h0]
  have hll := selIndLoop_cmp (tbl := tbl) (as := (a0 :: as').map CrtInt.trunc) (ind := ind) (k := k) (ys := oneHot (a0 :: as').length idx)
    (ext := ext) (s := s)
    (by intro x hx; rw [List.mem_map] at hx; obtain ⟨y, hy, rfl⟩ := hx; exact (hs y hy).limbs)
    (by intro x hx; rw [List.mem_map] at hx; obtain ⟨y, hy, rfl⟩ := hx; exact hk y hy)
    hi (by simpa using hlen) (oneHot_amoh _ _) (List.range k) (by simp)
  have hlen2 : Ret (p := p) (selIndLoop ((a0 :: as').map CrtInt.trunc) ind (List.range k)) (fun rs => rs.length = k) := by
    have : ∀ is : List ℕ, Ret (p := p) (selIndLoop ((a0 :: as').map CrtInt.trunc) ind is) (fun rs => rs.length = is.length) := by
      intro is
      induction is with
      | nil => exact Ret.pure rfl
      | cons i is ih =>
        refine Ret.bind_ fun col => Ret.bind_ fun r => Ret.bind ih fun rs hrs => Ret.pure (by simp [hrs])
    simpa using this (List.range k)
  refine Cmp.bind (hll.withRun (P := fun rs _ => rs.length = k) ?_) fun ls s1 e1 hls => ?_
  · intro _ r s' h
    exact hlen2 _ _ _ h
  obtain ⟨hw1, hlk⟩ := hls
  rw [pure_bind]
  dsimp only
  rw [hlk]
  have hv : Cmp tbl ext s1 (selIndNative (a0 :: as') ind ls k bases) (fun r s' => AvW ext s' r) := by
    unfold selIndNative
    split
    · rw [sliceTo_pure hb, pure_bind]
      exact evalNative_cmp hw1 (by simp; omega)
    · have hn : AvsW ext s1 ((a0 :: as').map CrtInt.native) := by
        intro x hx
        rw [List.mem_map] at hx
        obtain ⟨y, hy, rfl⟩ := hx
        exact (hs y hy).native.mono e1
      have hq := hn.qs
      rw [List.map_map] at hq
      exact (selectByIndicator_cmp (a := (a0 :: as').map fun a => .existing a.native) hq (hi.mono e1) (by simpa using hlen)
        (oneHot_amoh _ _)).weaken fun _ _ h => h.w
  refine Cmp.bind hv fun v s2 e2 hv => ?_
  rw [selIndVal_pure (v := a.value) (idx := idx) (s := s2) (ext := ext) 0 0 (a0 :: as').length (by simp) (by simpa [oneHot] using (hi.mono e1).mono e2)
    (by intro x _ hx; rw [Nat.sub_zero, ha, Option.some.injEq] at hx; rw [hx]) (by simp) hidx, pure_bind]
  exact Cmp.pure ⟨⟨hw1.mono e2, hv⟩, rfl⟩

end H2
