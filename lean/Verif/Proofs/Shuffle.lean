import Verif.Model.Shuffle
import Verif.Spec.Shuffle
import Mathlib.Data.List.FinRange
import Mathlib.Logic.Function.Basic
import Mathlib.Tactic.Linarith

/-!
# Lemmas on the shuffle
-/

namespace Signal.Shuffle
open Spec

theorem swap_length (l : List Nat) (i j : Nat) : (swap l i j).length = l.length := by
  unfold swap; simp

theorem swap_getElem? (l : List Nat) (i j x : Nat) (hi : i < l.length) (hj : j < l.length) :
    (swap l i j)[x]? = l[if x = i then j else if x = j then i else x]? := by
  unfold swap
  have e1 : l.getD j 0 = l[j] := by simp [hj]
  have e2 : l.getD i 0 = l[i] := by simp [hi]
  rw [e1, e2, List.getElem?_set, List.getElem?_set]
  by_cases h1 : x = j
  · subst h1
    by_cases h2 : x = i
    · subst h2; simp [hi]
    · simp [h2, hi, hj]
  · have h1' : ¬ j = x := fun h => h1 h.symm
    rw [if_neg h1']
    by_cases h2 : x = i
    · subst h2; simp [hi, hj]
    · rw [if_neg (fun h => h2 h.symm), if_neg h2, if_neg h1]

/-- The exchange that `m` passes make from `i` up and `j` down, where `bit` decides. -/
def act (bit : Nat → Bool) (m i j x : Nat) : Nat :=
  if (i ≤ x ∧ x < i + m) ∧ bit (i + j - x) then i + j - x
  else if (x ≤ j ∧ j < x + m) ∧ bit x then i + j - x
  else x

theorem swapLoop_length (hash : Bytes → Bytes) (buf : Bytes) : ∀ (m i j : Nat) (source : Bytes) (byte : Nat) (l : List Nat),
    (swapLoop hash buf m i j source byte l).length = l.length := by
  intro m
  induction m with
  | zero => intros; rfl
  | succ m ih =>
    intro i j source byte l
    unfold swapLoop
    dsimp only
    rw [ih]
    split_ifs <;> first | rfl | exact swap_length _ _ _

/-- The bit at position `j`. -/
def bitAt (hash : Bytes → Bytes) (buf : Bytes) (j : Nat) : Bool :=
  decide (((sourceAt hash buf (j / 256)).getD (j % 256 / 8) 0).toNat / 2 ^ (j % 8) % 2 = 1)

/-- The loop with the bits looked up afresh. -/
def plainLoop (bit : Nat → Bool) : (m i j : Nat) → List Nat → List Nat
  | 0, _, _, l => l
  | m + 1, i, j, l => plainLoop bit m (i + 1) (j - 1) (if bit j then swap l i j else l)

/-- The digest and the byte that are kept are those of the position. -/
theorem swapLoop_plain (hash : Bytes → Bytes) (buf : Bytes) : ∀ (m i j : Nat) (source : Bytes) (byte : Nat) (l : List Nat),
    m ≤ j + 1 → byte = (source.getD (j % 256 / 8) 0).toNat ∨ j % 8 = 7 →
    (j % 256 = 255 ∨ source = sourceAt hash buf (j / 256)) →
    swapLoop hash buf m i j source byte l = plainLoop (bitAt hash buf) m i j l := by
  intro m
  induction m with
  | zero => intros; rfl
  | succ m ih =>
    intro i j source byte l hm h1 h2
    unfold swapLoop plainLoop
    dsimp only
    have hs : (if j % 256 = 255 then sourceAt hash buf (j / 256) else source) = sourceAt hash buf (j / 256) := by
      split
      · rfl
      · rcases h2 with h | h
        · contradiction
        · exact h
    rw [hs]
    have hb : (if j % 8 = 7 then ((sourceAt hash buf (j / 256)).getD (j % 256 / 8) 0).toNat else byte) =
        ((sourceAt hash buf (j / 256)).getD (j % 256 / 8) 0).toNat := by
      split
      · rfl
      · rcases h1 with h | h
        · rcases h2 with h' | h'
          · omega
          · rw [h, h']
        · contradiction
    rw [hb]
    have hbit : (if ((sourceAt hash buf (j / 256)).getD (j % 256 / 8) 0).toNat / 2 ^ (j % 8) % 2 = 1 then swap l i j else l) =
        if bitAt hash buf j then swap l i j else l := by
      unfold bitAt
      simp only [decide_eq_true_eq]
    rw [hbit]
    rcases Nat.eq_zero_or_pos m with rfl | hpos
    · rfl
    · have hj : 0 < j := by omega
      refine ih (i + 1) (j - 1) _ _ _ (by omega) ?_ ?_
      · by_cases h : (j - 1) % 8 = 7
        · exact .inr h
        · left
          have : (j - 1) % 256 / 8 = j % 256 / 8 := by omega
          rw [this]
      · by_cases h : (j - 1) % 256 = 255
        · exact .inl h
        · right
          have : (j - 1) / 256 = j / 256 := by omega
          rw [this]

theorem plainLoop_getElem? (bit : Nat → Bool) : ∀ (m i j : Nat) (l : List Nat), i + 2 * m ≤ j + 1 → j < l.length → ∀ x,
    (plainLoop bit m i j l)[x]? = l[act bit m i j x]? := by
  intro m
  induction m with
  | zero =>
    intro i j l _ _ x
    unfold plainLoop act
    rw [if_neg (by omega), if_neg (by omega)]
  | succ m ih =>
    intro i j l hm hj x
    unfold plainLoop
    have hlen : (if bit j then swap l i j else l).length = l.length := by
      split
      · exact swap_length _ _ _
      · rfl
    rw [ih (i + 1) (j - 1) _ (by omega) (by rw [hlen]; omega) x]
    have hact : ∀ y, (if bit j then swap l i j else l)[y]? =
        l[if bit j then (if y = i then j else if y = j then i else y) else y]? := by
      intro y
      split
      · exact swap_getElem? l i j y (by omega) hj
      · rfl
    rw [hact]
    congr 1
    have e : i + 1 + (j - 1) = i + j := by omega
    unfold act
    rw [e]
    by_cases hxi : x = i
    · subst hxi
      have e1 : x + j - x = j := by omega
      have n1 : ¬ ((x + 1 ≤ x ∧ x < x + 1 + m) ∧ bit (x + j - x) = true) := by omega
      have n2 : ¬ ((x ≤ j - 1 ∧ j - 1 < x + m) ∧ bit x = true) := by omega
      have n3 : ¬ ((x ≤ j ∧ j < x + (m + 1)) ∧ bit x = true) := by omega
      rw [if_neg n1, if_neg n2, if_neg n3]
      by_cases hb : bit j
      · rw [if_pos hb, if_pos rfl, if_pos ⟨by omega, by rw [e1]; exact hb⟩, e1]
      · rw [if_neg hb, if_neg (by rw [e1]; exact fun h => hb h.2)]
    · by_cases hxj : x = j
      · subst hxj
        have e1 : i + x - x = i := by omega
        have n1 : ¬ ((i + 1 ≤ x ∧ x < i + 1 + m) ∧ bit (i + x - x) = true) := by omega
        have n2 : ¬ ((x ≤ x - 1 ∧ x - 1 < x + m) ∧ bit x = true) := by omega
        have n3 : ¬ ((i ≤ x ∧ x < i + (m + 1)) ∧ bit (i + x - x) = true) := by omega
        rw [if_neg n1, if_neg n2, if_neg n3]
        by_cases hb : bit x
        · rw [if_pos hb, if_neg hxi, if_pos rfl, if_pos ⟨by omega, hb⟩, e1]
        · rw [if_neg hb, if_neg (fun h => hb h.2)]
      · have hy : ∀ y, y ≠ i → y ≠ j → (if bit j then (if y = i then j else if y = j then i else y) else y) = y := by
          intro y h1 h2
          rw [if_neg h1, if_neg h2, ite_self]
        have c1 : (i + 1 ≤ x ∧ x < i + 1 + m) ↔ (i ≤ x ∧ x < i + (m + 1)) := by omega
        have c2 : (x ≤ j - 1 ∧ j - 1 < x + m) ↔ (x ≤ j ∧ j < x + (m + 1)) := by omega
        simp only [c1, c2]
        refine hy _ ?_ ?_ <;> split_ifs <;> omega

/-- One round on an index, with pivot `pivot`. -/
def flipAt (bit : Nat → Bool) (n pivot x : Nat) : Nat :=
  if bit (max x ((pivot + n - x) % n)) then (pivot + n - x) % n else x

theorem act_act (bit : Nat → Bool) {n pivot x : Nat} (hp : pivot < n) (hx : x < n) :
    act bit ((pivot + 1) / 2) 0 pivot (act bit ((pivot + n + 1) / 2 - (pivot + 1)) (pivot + 1) (n - 1) x) =
      flipAt bit n pivot x := by
  unfold flipAt
  by_cases h : x ≤ pivot
  · have e : (pivot + n - x) % n = pivot - x := by
      rw [show pivot + n - x = pivot - x + n by omega, Nat.add_mod_right, Nat.mod_eq_of_lt (by omega)]
    have e2 : act bit ((pivot + n + 1) / 2 - (pivot + 1)) (pivot + 1) (n - 1) x = x := by
      unfold act
      rw [if_neg (fun h => by omega), if_neg (fun h => by omega)]
    rw [e, e2]
    unfold act
    simp only [Nat.zero_add]
    rcases Nat.lt_trichotomy (2 * x) pivot with h1 | h1 | h1
    · rw [Nat.max_eq_right (by omega)]
      by_cases hb : bit (pivot - x)
      · rw [if_pos ⟨by omega, hb⟩, if_pos hb]
      · rw [if_neg (fun h => hb h.2), if_neg (fun h => by omega), if_neg hb]
    · rw [if_neg (fun h => by omega), if_neg (fun h => by omega)]
      split
      · omega
      · rfl
    · rw [Nat.max_eq_left (by omega), if_neg (fun h => by omega)]
      by_cases hb : bit x
      · rw [if_pos ⟨by omega, hb⟩, if_pos hb]
      · rw [if_neg (fun h => hb h.2), if_neg hb]
  · have e : (pivot + n - x) % n = pivot + n - x := Nat.mod_eq_of_lt (by omega)
    have e3 : pivot + 1 + (n - 1) = pivot + n := by omega
    have e1 : ∀ y, pivot < y → act bit ((pivot + 1) / 2) 0 pivot y = y := by
      intro y hy
      unfold act
      rw [if_neg (fun h => by omega), if_neg (fun h => by omega)]
    have e2 : act bit ((pivot + n + 1) / 2 - (pivot + 1)) (pivot + 1) (n - 1) x =
        if bit (max x (pivot + n - x)) then pivot + n - x else x := by
      unfold act
      rw [e3]
      rcases Nat.lt_trichotomy (2 * x) (pivot + n) with h1 | h1 | h1
      · rw [Nat.max_eq_right (by omega)]
        by_cases hb : bit (pivot + n - x)
        · rw [if_pos ⟨by omega, hb⟩, if_pos hb]
        · rw [if_neg (fun h => hb h.2), if_neg (fun h => by omega), if_neg hb]
      · rw [if_neg (fun h => by omega), if_neg (fun h => by omega)]
        split
        · omega
        · rfl
      · rw [Nat.max_eq_left (by omega), if_neg (fun h => by omega)]
        by_cases hb : bit x
        · rw [if_pos ⟨by omega, hb⟩, if_pos hb]
        · rw [if_neg (fun h => hb h.2), if_neg hb]
    rw [e2, e]
    apply e1
    split <;> omega

theorem flipAt_lt (bit : Nat → Bool) {n pivot x : Nat} (hx : x < n) : flipAt bit n pivot x < n := by
  unfold flipAt
  split
  · exact Nat.mod_lt _ (by omega)
  · exact hx

/-- A round undoes itself. -/
theorem flipAt_flipAt (bit : Nat → Bool) {n pivot x : Nat} (hp : pivot < n) (hx : x < n) :
    flipAt bit n pivot (flipAt bit n pivot x) = x := by
  have key : ∀ y, y < n → (pivot + n - y) % n < n ∧ (pivot + n - (pivot + n - y) % n) % n = y := by
    intro y hy
    by_cases h : y ≤ pivot
    · have e : (pivot + n - y) % n = pivot - y := by
        rw [show pivot + n - y = pivot - y + n by omega, Nat.add_mod_right, Nat.mod_eq_of_lt (by omega)]
      rw [e]
      refine ⟨by omega, ?_⟩
      rw [show pivot + n - (pivot - y) = y + n by omega, Nat.add_mod_right, Nat.mod_eq_of_lt hy]
    · have e : (pivot + n - y) % n = pivot + n - y := Nat.mod_eq_of_lt (by omega)
      rw [e]
      refine ⟨by omega, ?_⟩
      rw [show pivot + n - (pivot + n - y) = y by omega, Nat.mod_eq_of_lt hy]
  obtain ⟨k1, k2⟩ := key x hx
  by_cases hb : bit (max x ((pivot + n - x) % n))
  · have e : flipAt bit n pivot x = (pivot + n - x) % n := by unfold flipAt; rw [if_pos hb]
    rw [e]
    unfold flipAt
    rw [k2, Nat.max_comm, if_pos hb]
  · have e : flipAt bit n pivot x = x := by unfold flipAt; rw [if_neg hb]
    rw [e, e]

/-- The pivot of round `r`. -/
def pivotOf (hash : Bytes → Bytes) (cast : Nat) (seed : Bytes) (r n : Nat) : Nat :=
  ofLE ((hash (seed ++ [UInt8.ofNat r])).take 8) % cast % n

theorem round_length (hash : Bytes → Bytes) (cast : Nat) (seed : Bytes) (r : Nat) (l : List Nat) :
    (round hash cast seed r l).length = l.length := by
  unfold round
  dsimp only
  rw [swapLoop_length, swapLoop_length]

theorem round_getElem? (hash : Bytes → Bytes) (cast : Nat) (seed : Bytes) (r : Nat) (l : List Nat) {x : Nat} (hx : x < l.length) :
    (round hash cast seed r l)[x]? =
      l[flipAt (bitAt hash (seed ++ [UInt8.ofNat r])) l.length (pivotOf hash cast seed r l.length) x]? := by
  have hp : pivotOf hash cast seed r l.length < l.length := Nat.mod_lt _ (by omega)
  rw [← act_act _ hp hx]
  unfold round
  dsimp only
  rw [show ofLE ((hash (seed ++ [UInt8.ofNat r])).take 8) % cast % l.length = pivotOf hash cast seed r l.length from rfl]
  generalize pivotOf hash cast seed r l.length = pivot at hp ⊢
  rw [swapLoop_plain _ _ _ _ _ _ _ _ (by omega) (.inl rfl) (.inr rfl),
    swapLoop_plain _ _ _ _ _ _ _ _ (by omega) (.inl rfl) (.inr rfl)]
  have hlen : (plainLoop (bitAt hash (seed ++ [UInt8.ofNat r])) ((pivot + 1) / 2) 0 pivot l).length = l.length := by
    rw [← swapLoop_plain _ _ _ _ _ _ _ _ (by omega) (.inl rfl) (.inr rfl), swapLoop_length]
  rw [plainLoop_getElem? _ _ _ _ _ (by omega) (by rw [hlen]; omega), plainLoop_getElem? _ _ _ _ _ (by omega) (by omega)]

/-- A list that has the elements of `l` at the places `f`, where `f` undoes itself, has the same elements. -/
theorem perm_of_involution {l l' : List Nat} (f : Nat → Nat) (hlen : l'.length = l.length) (hlt : ∀ x < l.length, f x < l.length)
    (hinv : ∀ x < l.length, f (f x) = x) (h : ∀ x < l.length, l'[x]? = l[f x]?) : l'.Perm l := by
  let g : Fin l.length → Fin l.length := fun i => ⟨f i, hlt i i.2⟩
  have hg : Function.Involutive g := fun i => Fin.ext (hinv i i.2)
  have h1 := Equiv.Perm.ofFn_comp_perm hg.toPerm (fun i => l[(i : Nat)])
  rw [List.ofFn_getElem] at h1
  have h2 : List.ofFn ((fun i : Fin l.length => l[(i : Nat)]) ∘ hg.toPerm) = l' := by
    apply List.ext_getElem?
    intro x
    by_cases hx : x < l.length
    · rw [h x hx, List.getElem?_ofFn, dif_pos hx]
      have := hlt x hx
      simp only [Function.comp, Function.Involutive.coe_toPerm]
      show some l[f x] = _
      rw [List.getElem?_eq_getElem this]
    · rw [List.getElem?_eq_none (by simp; omega), List.getElem?_eq_none (by omega)]
  rwa [h2] at h1

theorem round_perm (hash : Bytes → Bytes) (cast : Nat) (seed : Bytes) (r : Nat) (l : List Nat) :
    (round hash cast seed r l).Perm l := by
  refine perm_of_involution _ (round_length _ _ _ _ _) (fun x hx => flipAt_lt _ hx) (fun x hx => flipAt_flipAt _ ?_ hx)
    (fun x hx => round_getElem? hash cast seed r l hx)
  exact Nat.mod_lt _ (by omega)

theorem rounds_perm (hash : Bytes → Bytes) (cast : Nat) (seed : Bytes) : ∀ (r : Nat) (l : List Nat),
    (rounds hash cast seed r l).Perm l := by
  intro r
  induction r with
  | zero => intro l; exact List.Perm.refl _
  | succ r ih => intro l; exact (ih _).trans (round_perm _ _ _ _ _)

theorem flipAt_shuffleRound (hash : Bytes → Bytes) (cast : Nat) (hcast : 2 ^ 64 ≤ cast) (seed : Bytes) (r n x : Nat) :
    flipAt (bitAt hash (seed ++ [UInt8.ofNat r])) n (pivotOf hash cast seed r n) x = shuffleRound hash seed n r x := by
  have hle : ∀ b : Bytes, ofLE b < 256 ^ b.length := by
    intro b
    induction b with
    | nil => decide
    | cons a b ih =>
      have h1 := a.toNat_lt
      show a.toNat + 256 * ofLE b < 256 ^ (b.length + 1)
      rw [Nat.pow_succ]
      omega
  have hlt : ofLE ((hash (seed ++ [UInt8.ofNat r])).take 8) < cast := by
    have h1 := hle ((hash (seed ++ [UInt8.ofNat r])).take 8)
    have h2 : 256 ^ ((hash (seed ++ [UInt8.ofNat r])).take 8).length ≤ 256 ^ 8 :=
      Nat.pow_le_pow_right (by omega) (by rw [List.length_take]; omega)
    omega
  unfold flipAt shuffleRound pivotOf bitAt swapBit sourceAt
  rw [Nat.mod_eq_of_lt hlt]
  simp only [decide_eq_true_eq]

theorem rounds_getElem? (hash : Bytes → Bytes) (cast : Nat) (hcast : 2 ^ 64 ≤ cast) (seed : Bytes) : ∀ (r : Nat) (l : List Nat) (x : Nat),
    x < l.length → (rounds hash cast seed r l)[x]? = l[shuffledIndex hash r seed l.length x]? := by
  have hlt : ∀ r n x, x < n → shuffledIndex hash r seed n x < n := by
    intro r
    induction r with
    | zero => intro n x hx; exact hx
    | succ r ih =>
      intro n x hx
      unfold shuffledIndex at ih ⊢
      rw [List.range_succ, List.foldl_append]
      show shuffleRound hash seed n r _ < n
      rw [← flipAt_shuffleRound hash cast hcast]
      exact flipAt_lt _ (ih n x hx)
  intro r
  induction r with
  | zero => intro l x _; rfl
  | succ r ih =>
    intro l x hx
    show (rounds hash cast seed r (round hash cast seed r l))[x]? = _
    have hl := round_length hash cast seed r l
    rw [ih _ x (by rw [hl]; exact hx), hl, round_getElem? _ _ _ _ _ (hlt r _ x hx), flipAt_shuffleRound hash cast hcast]
    unfold shuffledIndex
    rw [List.range_succ, List.foldl_append]
    rfl

theorem shuffledIndex_lt (hash : Bytes → Bytes) (seed : Bytes) (r n x : Nat) (hx : x < n) : shuffledIndex hash r seed n x < n := by
  induction r with
  | zero => exact hx
  | succ r ih =>
    unfold shuffledIndex at ih ⊢
    rw [List.range_succ, List.foldl_append]
    show shuffleRound hash seed n r _ < n
    rw [← flipAt_shuffleRound hash (2 ^ 64) (Nat.le_refl _)]
    exact flipAt_lt _ ih

end Signal.Shuffle
