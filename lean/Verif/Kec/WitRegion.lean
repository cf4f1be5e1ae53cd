import Verif.Kec.WitRoundGates

/-!
# The values of the cells in the region of a round
-/

set_option autoImplicit false
set_option linter.unusedSectionVars false
namespace H2.Kec

attribute [local irreducible] layout numBits wordParts

theorem put_keys (cells : List Cell) (vs : List (ℕ × ℕ)) : ((put cells vs).map (·.1)).Sublist cells := zip_keys _ _

theorem flatMap_keys {α : Type} (l : List α) (f : α → Region) (g : α → List Cell) (h : ∀ x ∈ l, ((f x).map (·.1)).Sublist (g x)) :
    ((l.flatMap f).map (·.1)).Sublist (l.flatMap g) := by
  induction l with
  | nil => simp
  | cons x l ih =>
    rw [List.flatMap_cons, List.flatMap_cons, List.map_append]
    exact (h x (by simp)).append (ih fun y hy => h y (by simp [hy]))

/-- The region of a round. -/
def regOf (k : ℕ) (L : Layout) (t : ℕ) (s : List ℕ) (ab : AbsorbD) (pads : List ℕ) (w : ℕ) : Region :=
  preReg k L s ab pads ++ if t < 24 then bodyReg k L t s ++ if 20 ≤ t then sqReg L w else [] else []

theorem roundReg_eq (k : ℕ) (L : Layout) (m : List Byte) (idx t : ℕ) :
    roundReg k L m idx t = regOf k L t (stV k L m idx t) (absorbAt k L m idx t) (padsAt m idx t) (sget (stV k L m idx 24) (23 - t) 0) := rfl

section
variable {k h : ℕ} (hw : WitL k h) {s : List ℕ} (hs : SOk s) (ab : AbsorbD) (pads : List ℕ) (t w : ℕ)
include hw hs

theorem pre_keys : ((preReg k (layout k h) s ab pads).map (·.1)).Sublist (preCells (layout k h)) := by
  unfold preReg preCells
  simp only [List.map_append]
  exact ((((((zip_keys _ _).append (List.Sublist.refl _)).append (put_keys _ _)).append (put_keys _ _)).append (put_keys _ _)).append
    (put_keys _ _)).append (zip_keys _ _)

theorem u_keys {x : ℕ} (hx : x < 25) : (uV k (layout k h) (thV k s) x).1.map (·.1) = ((layout k h).uparts.getD x []).flatMap UPart.cells := by
  have hdw := (thV_DW hw hs (i := x % 5) (j := x / 5) (by omega) (by omega)).2
  exact (uniV_spec hdw (by norm_num) _ _ (hw.rho x hx).2.2.1).2.2.1

theorem body_keys : ((bodyReg k (layout k h) t s).map (·.1)).Sublist (bodyCells k (layout k h)) := by
  unfold bodyReg bodyCells
  simp only [List.map_append]
  refine ((((((flatMap_keys _ _ _ fun i _ => put_keys _ _).append (flatMap_keys _ _ _ fun i _ => put_keys _ _)).append
    (flatMap_keys _ _ _ fun x hx => ?_)).append (flatMap_keys _ _ _ fun x _ => put_keys _ _)).append
    (flatMap_keys _ _ _ fun x _ => put_keys _ _)).append (put_keys _ _)).append (put_keys _ _)
  rw [u_keys hw hs (List.mem_range.mp hx)]

theorem sq_keys : ((sqReg (layout k h) w).map (·.1)).Sublist (sqCells (layout k h)) := by
  unfold sqReg sqCells
  simp only [List.map_cons, List.map_append]
  exact ((put_keys _ _).append (put_keys _ _)).cons_cons _

theorem reg_keys : ((regOf k (layout k h) t s ab pads w).map (·.1)).Sublist (allCells k (layout k h)) := by
  unfold regOf allCells
  rw [List.map_append, List.append_assoc]
  refine (pre_keys hw hs ab pads).append ?_
  split
  · rw [List.map_append]
    refine (body_keys hw hs t).append ?_
    split
    · exact sq_keys hw hs w
    · simp
  · simp

theorem reg_nodup : ((regOf k (layout k h) t s ab pads w).map (·.1)).Nodup := (cells_nodup hw).sublist (reg_keys hw hs ab pads t w)

theorem reg_out {c : Cell} (hc : c ∉ allCells k (layout k h)) : rget (regOf k (layout k h) t s ab pads w) c = 0 :=
  rget_of_not fun hm => hc ((reg_keys hw hs ab pads t w).subset hm)

theorem reg_mem {c : Cell} (hc : c ∈ (regOf k (layout k h) t s ab pads w).map (·.1)) :
    c ∈ (preReg k (layout k h) s ab pads).map (·.1) ∨ (t < 24 ∧ c ∈ bodyCells k (layout k h)) ∨ (20 ≤ t ∧ t < 24 ∧ c ∈ sqCells (layout k h)) := by
  unfold regOf at hc
  rw [List.map_append] at hc
  rcases List.mem_append.mp hc with hc | hc
  · exact .inl hc
  · right
    split at hc
    · rename_i ht
      rw [List.map_append] at hc
      rcases List.mem_append.mp hc with hc | hc
      · exact .inl ⟨ht, (body_keys hw hs t).subset hc⟩
      · split at hc
        · rename_i h20
          exact .inr ⟨h20, ht, (sq_keys hw hs w).subset hc⟩
        · simp at hc
    · simp at hc

theorem pre_body_disj {c : Cell} (h1 : c ∈ preCells (layout k h)) : c ∉ bodyCells k (layout k h) ∧ c ∉ sqCells (layout k h) := by
  have := cells_nodup hw
  unfold allCells at this
  rw [List.append_assoc, List.nodup_append] at this
  exact ⟨fun h2 => this.2.2 c h1 c (List.mem_append.mpr (.inl h2)) rfl, fun h2 => this.2.2 c h1 c (List.mem_append.mpr (.inr h2)) rfl⟩

theorem body_sq_disj {c : Cell} (h1 : c ∈ bodyCells k (layout k h)) : c ∉ sqCells (layout k h) := by
  have := cells_nodup hw
  unfold allCells at this
  rw [List.nodup_append] at this
  exact fun h2 => this.2.2 c (List.mem_append.mpr (.inr h1)) c h2 rfl

theorem reg_body_zero (ht : ¬ t < 24) : ∀ c ∈ bodyCells k (layout k h), rget (regOf k (layout k h) t s ab pads w) c = 0 := by
  intro c hc
  refine rget_of_not fun hm => ?_
  rcases reg_mem hw hs ab pads t w hm with h1 | ⟨h1, _⟩ | ⟨_, h1, _⟩
  · exact (pre_body_disj hw hs ((pre_keys hw hs ab pads).subset h1)).1 hc
  · exact ht h1
  · exact ht h1

theorem reg_sq_zero (ht : ¬ (20 ≤ t ∧ t < 24)) : ∀ c ∈ sqCells (layout k h), rget (regOf k (layout k h) t s ab pads w) c = 0 := by
  intro c hc
  refine rget_of_not fun hm => ?_
  rcases reg_mem hw hs ab pads t w hm with h1 | ⟨_, h1⟩ | ⟨h1, h2, _⟩
  · exact (pre_body_disj hw hs ((pre_keys hw hs ab pads).subset h1)).2 hc
  · exact body_sq_disj hw hs h1 hc
  · exact ht ⟨h1, h2⟩

theorem reg_pre : PreV k (layout k h) (rget (regOf k (layout k h) t s ab pads w)) s ab := by
  have hn := reg_nodup hw hs ab pads t w
  have hsub : ∀ e ∈ preReg k (layout k h) s ab pads, e ∈ regOf k (layout k h) t s ab pads w := fun e he => List.mem_append.mpr (.inl he)
  have hl : ∀ ps x, (splitV ps 0 x).length = (wordParts ps 0 false).length := fun ps x => by simp [splitV]
  refine ⟨?_, ?_, ?_, ?_, ?_, ?_, ?_, ?_⟩
  · exact rget_zip hn (by rw [hw.ls, hs.len]) fun e he => hsub e (by simp [preReg, he])
  · exact rget_of_mem hn (hsub _ (by simp [preReg]))
  · exact rget_of_mem hn (hsub _ (by simp [preReg]))
  · exact rget_of_mem hn (hsub _ (by simp [preReg]))
  · exact rget_put hn (by rw [hw.laf, hl]) fun e he => hsub e (by simp [preReg, he])
  · exact rget_put hn (by rw [hw.lar, List.length_map, hl]) fun e he => hsub e (by simp only [preReg, List.mem_append]; tauto)
  · exact rget_put hn (by rw [hw.lp, hl, hw.l8]) fun e he => hsub e (by simp only [preReg, List.mem_append]; tauto)
  · exact rget_put hn (by rw [hw.lib, List.length_map, hl, hw.l8]) fun e he => hsub e (by simp only [preReg, List.mem_append]; tauto)

theorem reg_pads (hl : pads.length = 8) : (layout k h).paddings.map (rget (regOf k (layout k h) t s ab pads w)) = pads := by
  have hn := reg_nodup hw hs ab pads t w
  refine rget_zip hn (by rw [hw.lpad, hl]) fun e he => List.mem_append.mpr (.inl ?_)
  simp only [preReg, List.mem_append]
  tauto

theorem reg_pads_nil {c : Cell} (hc : c ∈ (layout k h).paddings) : rget (regOf k (layout k h) t s ab [] w) c = 0 := by
  refine rget_of_not fun hm => ?_
  have hpre : c ∈ preCells (layout k h) := by simp [preCells, hc]
  rcases reg_mem hw hs ab [] t w hm with h1 | ⟨_, h1⟩ | ⟨_, _, h1⟩
  · unfold preReg at h1
    rw [List.zip_nil_right, List.append_nil] at h1
    have h2 : c ∈ (layout k h).s ++ [(layout k h).absorbFrom, (layout k h).absorbData, (layout k h).absorbResult] ++ (layout k h).absorbFat ++
        (layout k h).absorbRes ++ (layout k h).packed ++ (layout k h).inputBytes := by
      refine List.Sublist.subset ?_ h1
      simp only [List.map_append]
      exact (((((zip_keys _ _).append (List.Sublist.refl _)).append (put_keys _ _)).append (put_keys _ _)).append (put_keys _ _)).append
        (put_keys _ _)
    have := cells_nodup hw
    unfold allCells preCells at this
    rw [List.append_assoc, List.nodup_append] at this
    have := this.1
    rw [List.nodup_append] at this
    exact this.2.2 c h2 c hc rfl
  · exact (pre_body_disj hw hs hpre).1 h1
  · exact (pre_body_disj hw hs hpre).2 h1

theorem reg_body (ht : t < 24) : BodyV k (layout k h) (rget (regOf k (layout k h) t s ab pads w)) t s := by
  have hn := reg_nodup hw hs ab pads t w
  have hsub : ∀ e ∈ bodyReg k (layout k h) t s, e ∈ regOf k (layout k h) t s ab pads w := fun e he => by
    unfold regOf
    rw [if_pos ht]
    exact List.mem_append.mpr (.inr (List.mem_append.mpr (.inl he)))
  have hl : ∀ ps rot x, (splitV ps rot x).length = (wordParts ps rot false).length := fun ps rot x => by simp [splitV]
  have hrl : ∀ rpc i j, (rpcWord rpc (nParts k) i j).length = nParts k := fun rpc i j => by simp [rpcWord]
  refine ⟨fun i hi => ?_, fun i hi => ?_, fun x hx e he => ?_, fun x hx => ?_, fun x hx => ?_, ?_, ?_⟩
  · refine rget_put hn (by rw [(hw.lc i hi).1]; unfold cV; rw [hl]) fun e he => hsub e ?_
    simp only [bodyReg, List.mem_append]
    left; left; left; left; left; left
    exact List.mem_flatMap.mpr ⟨i, List.mem_range.mpr hi, he⟩
  · refine rget_put hn (by rw [(hw.lc i hi).2]; unfold bcV cV; rw [List.length_map, hl]) fun e he => hsub e ?_
    simp only [bodyReg, List.mem_append]
    left; left; left; left; left; right
    exact List.mem_flatMap.mpr ⟨i, List.mem_range.mpr hi, he⟩
  · refine rget_of_mem hn (hsub _ ?_)
    simp only [bodyReg, List.mem_append]
    left; left; left; left; right
    exact List.mem_flatMap.mpr ⟨x, List.mem_range.mpr hx, he⟩
  · have h1 := (rpV_spec hw hs hx).1
    have h2 : (rpV k (layout k h) (thV k s) x).length = nParts k := by
      have := congrArg List.length h1
      rwa [List.length_map] at this
    refine rget_put hn (by unfold w0; rw [hrl, h2]) fun e he => hsub e ?_
    simp only [bodyReg, List.mem_append]
    left; left; left; right
    exact List.mem_flatMap.mpr ⟨x, List.mem_range.mpr hx, he⟩
  · refine rget_put hn (by unfold w2 chiV chiIn; rw [hrl, List.length_map, List.length_map, List.length_range]; rfl) fun e he => hsub e ?_
    simp only [bodyReg, List.mem_append]
    left; left; right
    exact List.mem_flatMap.mpr ⟨x, List.mem_range.mpr hx, he⟩
  · refine rget_put hn (by unfold iotaIn; rw [hw.lif, hl]) fun e he => hsub e ?_
    simp only [bodyReg, List.mem_append]
    left; right; exact he
  · refine rget_put hn (by unfold iotaV iotaIn; rw [hw.lir, List.length_map, hl]) fun e he => hsub e ?_
    simp only [bodyReg, List.mem_append]
    right; exact he

theorem reg_sq (h20 : 20 ≤ t) (ht : t < 24) : SqV (layout k h) (rget (regOf k (layout k h) t s ab pads w)) w := by
  have hn := reg_nodup hw hs ab pads t w
  have hsub : ∀ e ∈ sqReg (layout k h) w, e ∈ regOf k (layout k h) t s ab pads w := fun e he => by
    unfold regOf
    rw [if_pos ht, if_pos h20]
    exact List.mem_append.mpr (.inr (List.mem_append.mpr (.inr he)))
  have hl : ∀ x, (splitV 8 0 x).length = 8 := fun x => by unfold splitV; rw [List.length_map, hw.l8]
  refine ⟨?_, ?_, ?_⟩
  · exact rget_of_mem hn (hsub _ (by simp [sqReg]))
  · exact rget_put hn (by rw [hw.lsp, hl]) fun e he => hsub e (by simp [sqReg, he])
  · exact rget_put hn (by rw [hw.lsb, List.length_map, hl]) fun e he => hsub e (by simp only [sqReg, List.mem_cons, List.mem_append]; tauto)

end
end H2.Kec
