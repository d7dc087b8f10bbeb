import Verif.Spec.XPrintf
namespace Verif.XPrintfProofs
open Verif.XPrintf Verif.XPrintfSpec

/-! ### Digits -/

theorem digits_core (c : Char) (r : Nat) (hr : 2 ≤ r) (g : Char → Char) (hg : ∀ d, d < r → digit c d = g (Nat.digitChar d)) :
    ∀ n v fuel ds, v < fuel → v < r ^ (n + 1) → (digits c r (n + 1) v).reverse ++ ds.map g = (Nat.toDigitsCore r fuel v ds).map g := by
  intro n
  induction n with
  | zero =>
    intro v fuel ds hf hv
    obtain ⟨k, rfl⟩ : ∃ k, fuel = k + 1 := ⟨fuel - 1, by omega⟩
    have h0 : v / r = 0 := Nat.div_eq_of_lt (by simpa using hv)
    have hm : v % r < r := Nat.mod_lt _ (by omega)
    simp [digits, Nat.toDigitsCore, h0, hg _ hm]
  | succ n ih =>
    intro v fuel ds hf hv
    obtain ⟨k, rfl⟩ : ∃ k, fuel = k + 1 := ⟨fuel - 1, by omega⟩
    have hm : v % r < r := Nat.mod_lt _ (by omega)
    rw [digits, Nat.toDigitsCore]
    by_cases h0 : v / r = 0
    · simp [h0, hg _ hm]
    · have hlt : v / r < v := Nat.div_lt_self (by
        rcases Nat.eq_zero_or_pos v with h | h
        · subst h; simp at h0
        · exact h) (by omega)
      have hv2 : v / r < r ^ (n + 1) := by
        rw [Nat.div_lt_iff_lt_mul (by omega), ← Nat.pow_succ]; exact hv
      have := ih (v / r) k (Nat.digitChar (v % r) :: ds) (by omega) hv2
      simp only [h0, if_false, ne_eq, not_false_eq_true, if_true]
      rw [← this]
      simp [hg _ hm]

theorem digits_eq (c : Char) (r : Nat) (hr : 2 ≤ r) (g : Char → Char) (hg : ∀ d, d < r → digit c d = g (Nat.digitChar d)) (v : Nat)
    (hv : v < r ^ 16) : (digits c r 16 v).reverse = (Nat.toDigits r v).map g := by
  have := digits_core c r hr g hg 15 v (v + 1) [] (by omega) hv
  simpa [Nat.toDigits] using this

theorem digit_low (c : Char) : ∀ d, d < 10 → digit c d = Nat.digitChar d := by
  intro d hd
  have : ∀ d : Fin 10, Char.ofNat (d.val + 48) = Nat.digitChar d.val := by decide
  have h9 : ¬ 9 < d := by omega
  simp only [digit, h9, if_false]
  exact this ⟨d, hd⟩

theorem digit_x : ∀ d, d < 16 → digit 'x' d = Nat.digitChar d := by
  intro d hd
  have : ∀ d : Fin 16, digit 'x' d.val = Nat.digitChar d.val := by decide
  exact this ⟨d, hd⟩

theorem digit_X : ∀ d, d < 16 → digit 'X' d = (Nat.digitChar d).toUpper := by
  intro d hd
  have : ∀ d : Fin 16, digit 'X' d.val = (Nat.digitChar d.val).toUpper := by decide
  exact this ⟨d, hd⟩

theorem digits_small (c : Char) (r : Nat) (hr : 2 ≤ r) (h10 : r ≤ 10) (v : Nat) (hv : v < r ^ 16) :
    (digits c r 16 v).reverse = Nat.toDigits r v := by
  have := digits_eq c r hr id (fun d hd => digit_low c d (by omega)) v hv
  simpa using this

theorem digits_len (c : Char) (r : Nat) : ∀ n v, (digits c r n v).length ≤ n := by
  intro n
  induction n with
  | zero => intro v; simp [digits]
  | succ n ih =>
    intro v
    rw [digits]
    split
    · simp [ih]
    · simp

/-! ### The width -/

def acc (w : Nat) (c : Char) : Nat := (w * 10 + (c.toNat - 48)) % 2 ^ 32

theorem width_text (c2 : Char) (rest : List Char) (h2 : isDigit c2 = false) : ∀ ds w, (∀ d ∈ ds, isDigit d = true) →
    width w (next (ds ++ c2 :: rest)).1 (next (ds ++ c2 :: rest)).2 = (ds.foldl acc w, c2, rest) := by
  intro ds
  induction ds with
  | nil =>
    intro w _
    simp only [List.nil_append, next, List.foldl_nil]
    cases rest <;> simp [width, h2]
  | cons d ds ih =>
    intro w h
    have hd : isDigit d = true := h d (by simp)
    have := ih (acc w d) (fun e he => h e (by simp [he]))
    simp only [List.cons_append, next, List.foldl_cons]
    cases ds with
    | nil =>
      simp only [List.nil_append] at this ⊢
      rw [width, if_pos hd]
      exact this
    | cons e es =>
      simp only [List.cons_append] at this ⊢
      rw [width, if_pos hd]
      exact this

theorem dc10 (d : Nat) (h : d < 10) : (Nat.digitChar d).toNat - 48 = d ∧ isDigit (Nat.digitChar d) = true := by
  have : ∀ d : Fin 10, (Nat.digitChar d.val).toNat - 48 = d.val ∧ isDigit (Nat.digitChar d.val) = true := by decide
  exact this ⟨d, h⟩

theorem fold_core : ∀ fuel n ds, n < fuel → (Nat.toDigitsCore 10 fuel n ds).foldl acc 0 = ds.foldl acc (n % 2 ^ 32) := by
  intro fuel
  induction fuel with
  | zero => intro n ds h; omega
  | succ k ih =>
    intro n ds h
    rw [Nat.toDigitsCore]
    have hd := (dc10 (n % 10) (by omega)).1
    by_cases h0 : n / 10 = 0
    · simp only [h0, if_true, List.foldl_cons]
      congr 1
      unfold acc
      rw [hd]
      omega
    · simp only [h0, if_false]
      rw [ih (n / 10) _ (by omega), List.foldl_cons]
      congr 1
      unfold acc
      rw [hd]
      omega

theorem core_digits : ∀ fuel n ds, (∀ d ∈ ds, isDigit d = true) → ∀ d ∈ Nat.toDigitsCore 10 fuel n ds, isDigit d = true := by
  intro fuel
  induction fuel with
  | zero => intro n ds h; exact h
  | succ k ih =>
    intro n ds h
    have hd := (dc10 (n % 10) (by omega)).2
    have h' : ∀ d ∈ Nat.digitChar (n % 10) :: ds, isDigit d = true := by
      intro d hm
      rcases List.mem_cons.1 hm with rfl | hm
      · exact hd
      · exact h d hm
    rw [Nat.toDigitsCore]
    by_cases h0 : n / 10 = 0
    · simp only [h0, if_true]; exact h'
    · simp only [h0, if_false]; exact ih _ _ h'

theorem core_head : ∀ fuel n ds, 0 < n → n < fuel → ∃ c t, Nat.toDigitsCore 10 fuel n ds = c :: t ∧ c ≠ '0' := by
  intro fuel
  induction fuel with
  | zero => intro n ds _ h; omega
  | succ k ih =>
    intro n ds hn h
    rw [Nat.toDigitsCore]
    by_cases h0 : n / 10 = 0
    · simp only [h0, if_true]
      refine ⟨_, _, rfl, ?_⟩
      have : ∀ d : Fin 10, d.val ≠ 0 → Nat.digitChar d.val ≠ '0' := by decide
      exact this ⟨n % 10, by omega⟩ (by simp only; omega)
    · simp only [h0, if_false]
      exact ih _ _ (by omega) (by omega)

theorem widthText_digits (w : Nat) : ∀ d ∈ widthText w, isDigit d = true := by
  unfold widthText
  split
  · intro d hd; simp at hd
  · exact core_digits _ _ _ (fun d hd => by simp at hd)

theorem widthText_val (w : Nat) (h : w < 2 ^ 32) : (widthText w).foldl acc 0 = w := by
  unfold widthText
  split
  · rename_i h0; simp [h0]
  · rw [Nat.toDigits, fold_core _ _ _ (by omega)]
    exact Nat.mod_eq_of_lt h

theorem head_ok (w : Nat) (e : Char) (t : List Char) (h1 : e ≠ '0') (h2 : e ≠ '-') :
    (next (widthText w ++ e :: t)).1 ≠ '0' ∧ (next (widthText w ++ e :: t)).1 ≠ '-' := by
  by_cases h0 : w = 0
  · simp [widthText, h0, next, h1, h2]
  · obtain ⟨c, t', hc, hne⟩ := core_head (w + 1) w [] (by omega) (by omega)
    have hw : widthText w = c :: t' := by
      unfold widthText
      rw [if_neg h0]
      exact hc
    have hd := widthText_digits w c (by rw [hw]; simp)
    rw [hw]
    refine ⟨hne, ?_⟩
    rintro h
    simp only [List.cons_append, next] at h
    rw [h] at hd
    exact absurd hd (by decide)

/-! ### One conversion -/

theorem conv_step (n : Nat) (f : Flag) (w : Nat) (l : Size) (ty : Char) (rest : List Char) (args : List Arg) (hw : w < 2 ^ 32)
    (hd : isDigit ty = false) (h0 : ty ≠ '\x00') (hl : ty ≠ 'l') (hL : ty ≠ 'L') (hz : ty ≠ '0') (hm : ty ≠ '-') :
    go (n + 1) ('%' :: (flagText f ++ widthText w ++ sizeText l ++ [ty]) ++ rest) args =
      match convert (decide (f = .zero)) (decide (f = .left)) w ty args with
      | none => none
      | some (out, args) => (go n rest args).map (out ++ ·) := by
  obtain ⟨e, t, he, hed, hez, hem, hsz⟩ : ∃ e t, sizeText l ++ ty :: rest = e :: t ∧ isDigit e = false ∧ e ≠ '0' ∧ e ≠ '-' ∧
      size e t = (ty, rest) := by
    cases l
    · exact ⟨ty, rest, rfl, hd, hz, hm, by simp [size, hl, hL]⟩
    · exact ⟨'l', ty :: rest, rfl, by decide, by decide, by decide, by simp [size, next]⟩
    · exact ⟨'L', ty :: rest, rfl, by decide, by decide, by decide, by simp [size, next]⟩
  have hb : flagText f ++ widthText w ++ sizeText l ++ [ty] ++ rest = flagText f ++ (widthText w ++ e :: t) := by
    rw [← he]; simp
  have hfl : flag (next (flagText f ++ (widthText w ++ e :: t))).1 (next (flagText f ++ (widthText w ++ e :: t))).2 =
      (decide (f = .zero), decide (f = .left), next (widthText w ++ e :: t)) := by
    obtain ⟨g1, g2⟩ := head_ok w e t hez hem
    cases f
    · simp [flagText, flag, g1, g2]
    · simp [flagText, flag, next]
    · simp [flagText, flag, next]
  have hwd := width_text e t hed (widthText w) 0 (widthText_digits w)
  rw [widthText_val w hw] at hwd
  rw [List.cons_append, hb, go, if_neg (by simp)]
  simp only [hfl, hwd, hsz, h0, if_false]
  cases convert (decide (f = .zero)) (decide (f = .left)) w ty args <;> rfl

/-! ### Numbers -/

theorem number_field (f : Flag) (w : Nat) (c d : Char) (r : Nat) (v : BitVec 32) (sign text : List Char)
    (hs : (if (decide (d = 'D') && v.msb) = true then
        digits c r 16 (if (decide (d = 'D') && v.msb) = true then 0#32 - v else v).toNat ++ ['-']
      else digits c r 16 (if (decide (d = 'D') && v.msb) = true then 0#32 - v else v).toNat).reverse = sign ++ text)
    (hz : f = .zero → sign = []) (hw : w < 2 ^ 31) :
    number (decide (f = .zero)) (decide (f = .left)) w c d r v = field f w sign text := by
  have hsl := digits_len c r 16 (if (decide (d = 'D') && v.msb) = true then 0#32 - v else v).toNat
  have hl17 : (if (decide (d = 'D') && v.msb) = true then
        digits c r 16 (if (decide (d = 'D') && v.msb) = true then 0#32 - v else v).toNat ++ ['-']
      else digits c r 16 (if (decide (d = 'D') && v.msb) = true then 0#32 - v else v).toNat).length ≤ 17 := by
    split <;> simp_all <;> omega
  unfold number buffer
  dsimp only
  generalize (if (decide (d = 'D') && v.msb) = true then _ else _ : List Char) = s at hs hl17 ⊢
  have hlen : s.length = (sign ++ text).length := by rw [← hs, List.length_reverse]
  have hsub : w - (max (sign ++ text).length w + 1) % 2 ^ 32 = 0 := by omega
  rw [hs, hlen]
  cases f
  · simp only [before, after, hsub, field]; simp
  · simp only [before, after, hsub, field]; simp [hz rfl]
  · simp [before, after, field]

theorem msb_toInt (v : BitVec 32) : v.msb = true ↔ v.toInt < 0 := by
  rw [BitVec.toInt_eq_msb_cond]
  have := v.isLt
  cases h : v.msb <;> simp <;> omega

theorem neg_nat (v : BitVec 32) (h : v.msb = true) : (0#32 - v).toNat = v.toInt.natAbs := by
  have h1 := v.isLt
  have h2 : 2 ^ 31 ≤ v.toNat := by
    have := BitVec.msb_eq_decide v
    rw [h] at this
    simpa using this.symm
  rw [BitVec.toInt_eq_msb_cond, if_pos h, BitVec.toNat_sub]
  simp
  omega

theorem pos_nat (v : BitVec 32) (h : v.msb = false) : v.toNat = v.toInt.natAbs := by
  rw [BitVec.toInt_eq_msb_cond, h]
  simp

theorem num_ok (f : Flag) (w : Nat) (l : Size) (t : Char) (v : BitVec 32) (hok : Ok (.num f w l t v)) (hsup : Supported (.num f w l t v))
    (args : List Arg) :
    convert (decide (f = .zero)) (decide (f = .left)) w t (.num v :: args) = some (field f w (signOf t v) (digitsOf t v), args) := by
  obtain ⟨hw, ht⟩ := hok
  obtain ⟨hz, hb⟩ := hsup
  have hv := v.isLt
  rcases ht with rfl | rfl | rfl | rfl | rfl | rfl
  · -- d
    have e : convert (decide (f = .zero)) (decide (f = .left)) w 'd' (.num v :: args) =
        some (number (decide (f = .zero)) (decide (f = .left)) w 'd' 'D' 10 v, args) := rfl
    rw [e, number_field f w 'd' 'D' 10 v (signOf 'd' v) (digitsOf 'd' v)]
    · cases hm : v.msb
      · have hn : ¬ v.toInt < 0 := fun h => by rw [(msb_toInt v).2 h] at hm; cases hm
        simp only [decide_true, Bool.true_and, Bool.false_eq_true, if_false, signOf, hn, and_false, digitsOf, if_true, List.nil_append]
        rw [digits_small _ 10 (by decide) (by decide) _ (by omega), pos_nat v hm]
      · have hn : v.toInt < 0 := (msb_toInt v).1 hm
        simp only [decide_true, Bool.true_and, if_true, signOf, hn, and_self, digitsOf, List.reverse_append]
        rw [digits_small _ 10 (by decide) (by decide) _ (by have := (0#32 - v).isLt; omega), neg_nat v hm]
        rfl
    · intro hf
      have : ¬ v.toInt < 0 := fun h => hz ⟨hf, rfl, h⟩
      simp [signOf, this]
    · exact hw
  · have e : convert (decide (f = .zero)) (decide (f = .left)) w 'u' (.num v :: args) =
        some (number (decide (f = .zero)) (decide (f = .left)) w 'u' 'U' 10 v, args) := rfl
    rw [e, number_field f w 'u' 'U' 10 v (signOf 'u' v) (digitsOf 'u' v)]
    · simp [signOf, digitsOf, digits_small _ 10 (by decide) (by decide) v.toNat (by omega)]
    · intro _; simp [signOf]
    · exact hw
  · have e : convert (decide (f = .zero)) (decide (f = .left)) w 'o' (.num v :: args) =
        some (number (decide (f = .zero)) (decide (f = .left)) w 'o' 'O' 8 v, args) := rfl
    rw [e, number_field f w 'o' 'O' 8 v (signOf 'o' v) (digitsOf 'o' v)]
    · simp [signOf, digitsOf, digits_small _ 8 (by decide) (by decide) v.toNat (by omega)]
    · intro _; simp [signOf]
    · exact hw
  · have e : convert (decide (f = .zero)) (decide (f = .left)) w 'b' (.num v :: args) =
        some (number (decide (f = .zero)) (decide (f = .left)) w 'b' 'B' 2 v, args) := rfl
    have hlt : v.toNat < 2 ^ 16 := Nat.lt_of_not_le fun h => hb ⟨rfl, h⟩
    rw [e, number_field f w 'b' 'B' 2 v (signOf 'b' v) (digitsOf 'b' v)]
    · simp [signOf, digitsOf, digits_small _ 2 (by decide) (by decide) v.toNat hlt]
    · intro _; simp [signOf]
    · exact hw
  · have e : convert (decide (f = .zero)) (decide (f = .left)) w 'x' (.num v :: args) =
        some (number (decide (f = .zero)) (decide (f = .left)) w 'x' 'X' 16 v, args) := rfl
    have := digits_eq 'x' 16 (by decide) id digit_x v.toNat (by omega)
    rw [e, number_field f w 'x' 'X' 16 v (signOf 'x' v) (digitsOf 'x' v)]
    · simp [signOf, digitsOf, this]
    · intro _; simp [signOf]
    · exact hw
  · have e : convert (decide (f = .zero)) (decide (f = .left)) w 'X' (.num v :: args) =
        some (number (decide (f = .zero)) (decide (f = .left)) w 'X' 'X' 16 v, args) := rfl
    have := digits_eq 'X' 16 (by decide) Char.toUpper digit_X v.toNat (by omega)
    rw [e, number_field f w 'X' 'X' 16 v (signOf 'X' v) (digitsOf 'X' v)]
    · simp [signOf, digitsOf, this]
    · intro _; simp [signOf]
    · exact hw

/-! ### A whole format -/

theorem piece_step (n : Nat) (p : Piece) (hok : Ok p) (hsup : Supported p) (rest : List Char) (args : List Arg) :
    go (n + 1) (written p ++ rest) (argOf p ++ args) = (go n rest args).map (printed p ++ ·) := by
  cases p with
  | lit c =>
    show go (n + 1) (c :: rest) args = _
    rw [go, if_pos hok.1]
    rfl
  | percent =>
    have := conv_step n .plain 0 .int '%' rest args (by decide) (by decide) (by decide) (by decide) (by decide) (by decide) (by decide)
    exact this
  | chr v =>
    have := conv_step n .plain 0 .int 'c' rest (.num v :: args) (by decide) (by decide) (by decide) (by decide) (by decide) (by decide) (by decide)
    exact this
  | str f w s =>
    have := conv_step n f w .int 's' rest (.str s :: args) (by have := hok.1; omega) (by decide) (by decide) (by decide) (by decide) (by decide) (by decide)
    have e : convert (decide (f = .zero)) (decide (f = .left)) w 's' (.str s :: args) =
        some (before (decide (f = .left)) ' ' w s.length ++ s ++ after (decide (f = .left)) w s.length, args) := rfl
    rw [e] at this
    have hw : written (.str f w s) ++ rest = '%' :: (flagText f ++ widthText w ++ sizeText .int ++ ['s']) ++ rest := by
      simp [written, sizeText]
    have hp : printed (.str f w s) = before (decide (f = .left)) ' ' w s.length ++ s ++ after (decide (f = .left)) w s.length := by
      have hsub : w - (max s.length w + 1) % 2 ^ 32 = 0 := by have := hok.1; have := hok.2; omega
      cases f <;> (simp only [printed, before, after, hsub]; simp [field])
    rw [hw, hp]
    exact this
  | num f w l t v =>
    have ht := hok.2
    have hne : isDigit t = false ∧ t ≠ '\x00' ∧ t ≠ 'l' ∧ t ≠ 'L' ∧ t ≠ '0' ∧ t ≠ '-' := by
      rcases ht with rfl | rfl | rfl | rfl | rfl | rfl <;> decide
    obtain ⟨n1, n2, n3, n4, n5, n6⟩ := hne
    have := conv_step n f w l t rest (.num v :: args) (by have := hok.1; omega) n1 n2 n3 n4 n5 n6
    rw [num_ok f w l t v hok hsup args] at this
    exact this

theorem go_pieces (ps : List Piece) : ∀ n, ps.length < n → (∀ p ∈ ps, Ok p ∧ Supported p) →
    go n (ps.flatMap written) (ps.flatMap argOf) = some (ps.flatMap printed) := by
  induction ps with
  | nil =>
    intro n hn _
    obtain ⟨k, rfl⟩ : ∃ k, n = k + 1 := ⟨n - 1, by omega⟩
    rfl
  | cons p ps ih =>
    intro n hn h
    obtain ⟨k, rfl⟩ : ∃ k, n = k + 1 := ⟨n - 1, by omega⟩
    simp only [List.flatMap_cons]
    rw [piece_step k p (h p (by simp)).1 (h p (by simp)).2, ih k (by simp at hn; omega) (fun q hq => h q (by simp [hq]))]
    rfl

theorem written_pos (p : Piece) : 1 ≤ (written p).length := by
  cases p <;> simp [written]

theorem pieces_le (ps : List Piece) : ps.length ≤ (ps.flatMap written).length := by
  induction ps with
  | nil => simp
  | cons p ps ih =>
    have := written_pos p
    simp only [List.flatMap_cons, List.length_append, List.length_cons]
    omega

/-! ### The buffer -/

theorem digits_len10 (c : Char) : ∀ k n v, v < 10 ^ (k + 1) → (digits c 10 n v).length ≤ k + 1 := by
  intro k
  induction k with
  | zero =>
    intro n v hv
    cases n with
    | zero => simp [digits]
    | succ n =>
      have : v / 10 = 0 := by omega
      simp [digits, this]
  | succ k ih =>
    intro n v hv
    cases n with
    | zero => simp [digits]
    | succ n =>
      rw [digits]
      split
      · have := ih n (v / 10) (by rw [Nat.div_lt_iff_lt_mul (by decide), ← Nat.pow_succ]; exact hv)
        simp
        omega
      · simp

/-- Binary numbers: the digits of the low sixteen bits. -/
theorem digits2 (c : Char) : ∀ n v, 2 ^ n ≤ v → (digits c 2 n v).length = n := by
  intro n
  induction n with
  | zero => intro v _; simp [digits]
  | succ n ih =>
    intro v hv
    have h1 : 2 ^ n ≤ v / 2 := by
      rw [Nat.le_div_iff_mul_le (by decide), ← Nat.pow_succ]; exact hv
    have h2 : v / 2 ≠ 0 := by have := Nat.two_pow_pos n; omega
    rw [digits, if_pos h2]
    simp [ih _ h1]

/-! ### What is printed for all pieces -/

/-- The field as `xprintf` makes it. -/
def field' (f : Flag) (w : Nat) (sign text : List Char) : List Char :=
  match f with
  | .zero => List.replicate (w - (sign ++ text).length) '0' ++ sign ++ text
  | f => field f w sign text

theorem actual_num (f : Flag) (w : Nat) (l : Size) (t : Char) (v : BitVec 32) :
    actual (.num f w l t v) = field' f w (signOf t v) (lastSixteen (digitsOf t v)) := by
  cases f <;> rfl

theorem number_actual (f : Flag) (w : Nat) (c d : Char) (r : Nat) (v : BitVec 32) (sign text : List Char)
    (hs : (buffer c d r v).reverse = sign ++ text) (hw : w < 2 ^ 31) :
    number (decide (f = .zero)) (decide (f = .left)) w c d r v = field' f w sign text := by
  have hl17 : (buffer c d r v).length ≤ 17 := by
    have hsl := digits_len c r 16 (if (decide (d = 'D') && v.msb) = true then 0#32 - v else v).toNat
    unfold buffer
    dsimp only
    split <;> simp_all <;> omega
  unfold number
  dsimp only
  generalize buffer c d r v = s at hs hl17 ⊢
  have hlen : s.length = (sign ++ text).length := by rw [← hs, List.length_reverse]
  have hsub : w - (max (sign ++ text).length w + 1) % 2 ^ 32 = 0 := by omega
  rw [hs, hlen]
  cases f
  · simp only [before, after, hsub, field', field]; simp
  · simp only [before, after, hsub, field']; simp
  · simp [before, after, field', field]

theorem last_short (c : Char) (r n : Nat) (l : List Char) (h : (digits c r 16 n).reverse = l) : lastSixteen l = l := by
  have := digits_len c r 16 n
  have hl : l.length ≤ 16 := by rw [← h, List.length_reverse]; exact this
  unfold lastSixteen
  rw [Nat.sub_eq_zero_of_le hl, List.drop_zero]

theorem digits_take (c : Char) (r : Nat) : ∀ n k v, digits c r n v = (digits c r (n + k) v).take n := by
  intro n
  induction n with
  | zero => intro k v; simp [digits]
  | succ n ih =>
    intro k v
    rw [Nat.succ_add, digits, digits]
    simp only [List.take_succ_cons]
    congr 1
    split
    · exact ih k _
    · simp

theorem binary_last (v : BitVec 32) : (digits 'b' 2 16 v.toNat).reverse = lastSixteen (Nat.toDigits 2 v.toNat) := by
  have h := digits_core 'b' 2 (by decide) id (fun d hd => digit_low 'b' d (by omega)) 31 v.toNat (v.toNat + 1) [] (by omega) v.isLt
  have h' : (digits 'b' 2 32 v.toNat).reverse = Nat.toDigits 2 v.toNat := by simpa [Nat.toDigits] using h
  rw [digits_take 'b' 2 16 16, ← h', lastSixteen, List.reverse_take, List.length_reverse]

theorem num_actual (f : Flag) (w : Nat) (l : Size) (t : Char) (v : BitVec 32) (hok : Ok (.num f w l t v)) (args : List Arg) :
    convert (decide (f = .zero)) (decide (f = .left)) w t (.num v :: args) = some (actual (.num f w l t v), args) := by
  obtain ⟨hw, ht⟩ := hok
  have hv := v.isLt
  rw [actual_num]
  rcases ht with rfl | rfl | rfl | rfl | rfl | rfl
  · have e : convert (decide (f = .zero)) (decide (f = .left)) w 'd' (.num v :: args) =
        some (number (decide (f = .zero)) (decide (f = .left)) w 'd' 'D' 10 v, args) := rfl
    rw [e, number_actual f w 'd' 'D' 10 v (signOf 'd' v) (lastSixteen (digitsOf 'd' v)) _ hw]
    cases hm : v.msb
    · have hn : ¬ v.toInt < 0 := fun h => by rw [(msb_toInt v).2 h] at hm; cases hm
      have hd := digits_small 'd' 10 (by decide) (by decide) v.toNat (by omega)
      rw [pos_nat v hm] at hd
      have hl := last_short _ _ _ _ hd
      simp only [buffer, hm, decide_true, Bool.true_and, Bool.false_eq_true, if_false, signOf, hn, and_false, digitsOf, if_true, List.nil_append]
      rw [hl, pos_nat v hm, hd]
    · have hn : v.toInt < 0 := (msb_toInt v).1 hm
      have hd := digits_small 'd' 10 (by decide) (by decide) (0#32 - v).toNat (by have := (0#32 - v).isLt; omega)
      rw [neg_nat v hm] at hd
      have hl := last_short _ _ _ _ hd
      simp only [buffer, hm, decide_true, Bool.true_and, if_true, signOf, hn, and_self, digitsOf, List.reverse_append]
      rw [hl, neg_nat v hm, hd]
      rfl
  · have e : convert (decide (f = .zero)) (decide (f = .left)) w 'u' (.num v :: args) =
        some (number (decide (f = .zero)) (decide (f = .left)) w 'u' 'U' 10 v, args) := rfl
    have hd := digits_small 'u' 10 (by decide) (by decide) v.toNat (by omega)
    rw [e, number_actual f w 'u' 'U' 10 v (signOf 'u' v) (lastSixteen (digitsOf 'u' v)) _ hw]
    simp [buffer, signOf, digitsOf, last_short _ _ _ _ hd, hd]
  · have e : convert (decide (f = .zero)) (decide (f = .left)) w 'o' (.num v :: args) =
        some (number (decide (f = .zero)) (decide (f = .left)) w 'o' 'O' 8 v, args) := rfl
    have hd := digits_small 'o' 8 (by decide) (by decide) v.toNat (by omega)
    rw [e, number_actual f w 'o' 'O' 8 v (signOf 'o' v) (lastSixteen (digitsOf 'o' v)) _ hw]
    simp [buffer, signOf, digitsOf, last_short _ _ _ _ hd, hd]
  · have e : convert (decide (f = .zero)) (decide (f = .left)) w 'b' (.num v :: args) =
        some (number (decide (f = .zero)) (decide (f = .left)) w 'b' 'B' 2 v, args) := rfl
    rw [e, number_actual f w 'b' 'B' 2 v (signOf 'b' v) (lastSixteen (digitsOf 'b' v)) _ hw]
    simp [buffer, signOf, digitsOf, binary_last]
  · have e : convert (decide (f = .zero)) (decide (f = .left)) w 'x' (.num v :: args) =
        some (number (decide (f = .zero)) (decide (f = .left)) w 'x' 'X' 16 v, args) := rfl
    have hd := digits_eq 'x' 16 (by decide) id digit_x v.toNat (by omega)
    rw [List.map_id] at hd
    rw [e, number_actual f w 'x' 'X' 16 v (signOf 'x' v) (lastSixteen (digitsOf 'x' v)) _ hw]
    simp [buffer, signOf, digitsOf, last_short _ _ _ _ hd, hd]
  · have e : convert (decide (f = .zero)) (decide (f = .left)) w 'X' (.num v :: args) =
        some (number (decide (f = .zero)) (decide (f = .left)) w 'X' 'X' 16 v, args) := rfl
    have hd := digits_eq 'X' 16 (by decide) Char.toUpper digit_X v.toNat (by omega)
    rw [e, number_actual f w 'X' 'X' 16 v (signOf 'X' v) (lastSixteen (digitsOf 'X' v)) _ hw]
    simp [buffer, signOf, digitsOf, last_short _ _ _ _ hd, hd]

theorem piece_actual (n : Nat) (p : Piece) (hok : Ok p) (rest : List Char) (args : List Arg) :
    go (n + 1) (written p ++ rest) (argOf p ++ args) = (go n rest args).map (actual p ++ ·) := by
  cases p with
  | num f w l t v =>
    have hne : isDigit t = false ∧ t ≠ '\x00' ∧ t ≠ 'l' ∧ t ≠ 'L' ∧ t ≠ '0' ∧ t ≠ '-' := by
      rcases hok.2 with rfl | rfl | rfl | rfl | rfl | rfl <;> decide
    obtain ⟨n1, n2, n3, n4, n5, n6⟩ := hne
    have := conv_step n f w l t rest (.num v :: args) (by have := hok.1; omega) n1 n2 n3 n4 n5 n6
    rw [num_actual f w l t v hok args] at this
    exact this
  | lit c => exact piece_step n (.lit c) hok trivial rest args
  | percent => exact piece_step n .percent hok trivial rest args
  | chr v => exact piece_step n (.chr v) hok trivial rest args
  | str f w s => exact piece_step n (.str f w s) hok trivial rest args

theorem go_actual (ps : List Piece) : ∀ n, ps.length < n → (∀ p ∈ ps, Ok p) →
    go n (ps.flatMap written) (ps.flatMap argOf) = some (ps.flatMap actual) := by
  induction ps with
  | nil =>
    intro n hn _
    obtain ⟨k, rfl⟩ : ∃ k, n = k + 1 := ⟨n - 1, by omega⟩
    rfl
  | cons p ps ih =>
    intro n hn h
    obtain ⟨k, rfl⟩ : ∃ k, n = k + 1 := ⟨n - 1, by omega⟩
    simp only [List.flatMap_cons]
    rw [piece_actual k p (h p (by simp)), ih k (by simp at hn; omega) (fun q hq => h q (by simp [hq]))]
    rfl

end Verif.XPrintfProofs
