import Mathlib.Tactic.Linarith
import Mathlib.Tactic.FieldSimp
import Mathlib.Tactic.Positivity
import Mathlib.Tactic.NormNum
import Mathlib.Algebra.Order.Ring.Abs
import Mathlib.Algebra.Order.Field.Basic
import Mathlib.Data.Rat.Lemmas
import Verif.Model.Stream
import Verif.Props.IndexBounds
/-! Helper lemmas for C35–C38: bytes of numbers, readers on streams that are long enough, and readers on a stream and on an
extension of it. -/
namespace Wavemap

theorem leBytes_length (n v : Nat) : (leBytes n v).length = n := by
  induction n generalizing v with
  | zero => rfl
  | succ n ih => simp [leBytes, ih]

theorem ofLe_leBytes (n v : Nat) : ofLe (leBytes n v) = v % 256 ^ n := by
  induction n generalizing v with
  | zero => simp [leBytes, ofLe, Nat.mod_one]
  | succ n ih =>
    simp only [leBytes, ofLe, ih]
    rw [Nat.pow_succ', Nat.mod_mul]

theorem ofLe_of_lt {n v : Nat} (h : v < 256 ^ n) : ofLe (leBytes n v) = v := by
  rw [ofLe_leBytes, Nat.mod_eq_of_lt h]

theorem int32Bytes_length (i : Int) : (int32Bytes i).length = 4 := leBytes_length _ _

theorem ofInt32_int32 (i : Int) (h : -2147483648 ≤ i ∧ i ≤ 2147483647) : ofInt32Bytes (int32Bytes i) = i := by
  unfold ofInt32Bytes int32Bytes
  rw [ofLe_of_lt (by norm_num; omega)]
  norm_num
  split <;> omega

theorem floatBytes_length (q : ℚ) : (floatBytes q).length = 4 := leBytes_length _ _

theorem float32OfBits_abs (w : Nat) (hw : w / 2 ^ 23 % 256 ≠ 255) : ∃ e m : Nat, 1 ≤ e ∧ e < 255 ∧ m < 2 ^ 24 ∧ (e = 1 ∨ 2 ^ 23 ≤ m) ∧
    |float32OfBits w| = m * 2 ^ e / 2 ^ 150 := by
  refine ⟨max (w / 2 ^ 23 % 256) 1, if w / 2 ^ 23 % 256 = 0 then w % 2 ^ 23 else 2 ^ 23 + w % 2 ^ 23, by omega, by omega, ?_, ?_, ?_⟩
  · split <;> omega
  · split <;> omega
  · unfold float32OfBits
    dsimp only
    have : (0 : ℚ) ≤ ((if w / 2 ^ 23 % 256 = 0 then w % 2 ^ 23 else 2 ^ 23 + w % 2 ^ 23 : Nat) : ℚ) * 2 ^ (max (w / 2 ^ 23 % 256) 1) / 2 ^ 150 := by
      positivity
    split
    · exact abs_of_nonneg this
    · rw [abs_neg]; exact abs_of_nonneg this

theorem float_val (w s e f : Nat) (hs : w / 2 ^ 31 % 2 = s) (he : w / 2 ^ 23 % 256 = e) (hf : w % 2 ^ 23 = f) :
    float32OfBits w = if s = 0 then ((if e = 0 then f else 2 ^ 23 + f : Nat) : ℚ) * 2 ^ (max e 1) / 2 ^ 150
      else -(((if e = 0 then f else 2 ^ 23 + f : Nat) : ℚ) * 2 ^ (max e 1) / 2 ^ 150) := by
  subst hs he hf; rfl

theorem float_decode (s e m : Nat) (hs : s < 2) (he : 1 ≤ e ∧ e < 255) (hm : m < 2 ^ 24) (hn : e = 1 ∨ 2 ^ 23 ≤ m) :
    float32OfBits (s * 2 ^ 31 + (if m < 2 ^ 23 then 0 else e * 2 ^ 23) + m % 2 ^ 23) =
      if s = 0 then (m : ℚ) * 2 ^ e / 2 ^ 150 else -((m : ℚ) * 2 ^ e / 2 ^ 150) := by
  by_cases hlt : m < 2 ^ 23
  · have he1 : e = 1 := by omega
    subst he1
    rw [if_pos hlt, float_val _ s 0 m (by omega) (by omega) (by omega), if_pos rfl]
    rfl
  · rw [if_neg hlt, float_val _ s e (m - 2 ^ 23) (by omega) (by omega) (by omega), if_neg (show ¬ e = 0 by omega)]
    have h1 : max e 1 = e := by omega
    have h2 : 2 ^ 23 + (m - 2 ^ 23) = m := by omega
    rw [h1, h2]

theorem fits_of {a : ℚ} {e m : Nat} (he : 1 ≤ e) (hm : m < 2 ^ 24) (hn : e = 1 ∨ 2 ^ 23 ≤ m) (ha : a = m * 2 ^ e / 2 ^ 150) :
    fitsExponent a e = true := by
  have : a * 2 ^ 150 / 2 ^ e = (m : ℚ) := by rw [ha]; field_simp
  unfold fitsExponent
  rw [this]
  simp only [Rat.den_natCast, Rat.num_natCast, Int.toNat_natCast, Bool.and_eq_true, Bool.or_eq_true, decide_eq_true_eq]
  exact ⟨⟨trivial, decide_eq_true hm⟩, hn.imp id fun h => decide_eq_true h⟩

theorem fits_elim {a : ℚ} {e : Nat} (ha : 0 ≤ a) (h : fitsExponent a e = true) :
    (a * 2 ^ 150 / 2 ^ e).num.toNat < 2 ^ 24 ∧ (e = 1 ∨ 2 ^ 23 ≤ (a * 2 ^ 150 / 2 ^ e).num.toNat) ∧
      a = ((a * 2 ^ 150 / 2 ^ e).num.toNat : ℚ) * 2 ^ e / 2 ^ 150 := by
  unfold fitsExponent at h
  simp only [Bool.and_eq_true, Bool.or_eq_true, decide_eq_true_eq] at h
  refine ⟨h.1.2, h.2, ?_⟩
  have hd := h.1.1
  have hpos : (0 : ℚ) ≤ a * 2 ^ 150 / 2 ^ e := by positivity
  generalize hx : a * 2 ^ 150 / 2 ^ e = x at *
  have hnum : (x.num.toNat : ℚ) = x := by
    have h1 : ((x.num.toNat : Int) : ℚ) = x.num := by rw [Int.toNat_of_nonneg (Rat.num_nonneg.2 hpos)]
    have h2 : (x.num : ℚ) = x := by
      conv_rhs => rw [← Rat.num_div_den x, hd]
      simp
    rw [h2] at h1
    exact_mod_cast h1
  rw [hnum, ← hx]
  field_simp

theorem float32_roundtrip {q : ℚ} (h : IsFloat32 q) : float32OfBits (ofLe (floatBytes q)) = q := by
  obtain ⟨w, -, hfin, rfl⟩ := h
  obtain ⟨e, m, h1, h2, h3, h4, h5⟩ := float32OfBits_abs w hfin
  generalize float32OfBits w = q at *
  have hf := fits_of h1 h3 h4 h5
  unfold floatBytes float32Bits
  cases hfind : (List.range 255).find? fun e => decide (1 ≤ e) && fitsExponent |q| e with
  | none =>
    rw [List.find?_eq_none] at hfind
    exact absurd (by simp [h1, hf]) (hfind e (List.mem_range.2 h2))
  | some e' =>
    have hp := List.find?_some hfind
    have hmem := List.mem_range.1 (List.mem_of_find?_eq_some hfind)
    simp only [Bool.and_eq_true, decide_eq_true_eq] at hp
    obtain ⟨g1, g2, g3⟩ := fits_elim (abs_nonneg q) hp.2
    dsimp only
    generalize (|q| * 2 ^ 150 / 2 ^ e').num.toNat = m' at *
    have hsgn : (if q < 0 then 2 ^ 31 else 0 : Nat) = (if q < 0 then 1 else 0) * 2 ^ 31 := by split <;> simp
    rw [hsgn]
    have hs2 : (if q < 0 then 1 else 0 : Nat) < 2 := by split <;> omega
    have hb : (if q < 0 then 1 else 0) * 2 ^ 31 + (if m' < 2 ^ 23 then 0 else e' * 2 ^ 23) + m' % 2 ^ 23 < 256 ^ 4 := by
      generalize (if q < 0 then 1 else 0 : Nat) = s at *
      norm_num
      split <;> omega
    rw [ofLe_of_lt hb, float_decode _ _ _ hs2 ⟨hp.1, hmem⟩ g1 g2, ← g3]
    by_cases hq : q < 0
    · rw [if_pos hq, if_neg (by decide), abs_of_neg hq, neg_neg]
    · rw [if_neg hq, if_pos rfl, abs_of_nonneg (not_lt.1 hq)]

theorem isFloat32_zero : IsFloat32 0 := ⟨0, by norm_num, by norm_num, by norm_num [float32OfBits]⟩

/-! ## Readers -/

/-- A reader gets `a` from the bytes `e`, whatever follows. -/
def Reads {α : Type} (R : IStream → α × IStream) (e : List Byte) (a : α) : Prop :=
  ∀ rest, R ⟨e ++ rest, true⟩ = (a, ⟨rest, true⟩)

/-- More bytes at the end of a stream. -/
def IStream.app (s : IStream) (X : List Byte) : IStream := ⟨s.bytes ++ X, s.good⟩

/-- A reader that leaves the stream good does the same if more bytes follow, and it takes at least `n` bytes. -/
structure Ext {α : Type} (R : IStream → α × IStream) (n : Nat) : Prop where
  good : ∀ s, (R s).2.good = true → s.good = true ∧ (R s).2.bytes.length + n = s.bytes.length
  ext : ∀ s X, (R s).2.good = true → R (s.app X) = ((R s).1, (R s).2.app X)
  le : ∀ s, (R s).2.bytes.length ≤ s.bytes.length
  bad : ∀ s, s.bytes.length < n → s.good = true → (R s).2.good = false

theorem Reads.bind {α β : Type} {R : IStream → α × IStream} {S : α → IStream → β × IStream} {e e' : List Byte} {a : α} {b : β}
    (h : Reads R e a) (h' : Reads (S a) e' b) : Reads (fun s => S (R s).1 (R s).2) (e ++ e') b := by
  intro rest
  have := h (e' ++ rest)
  rw [List.append_assoc]
  dsimp only
  rw [this]
  exact h' rest

theorem Reads.pure {α : Type} (a : α) : Reads (fun s => (a, s)) [] a := fun _ => rfl

theorem Ext.pure {α : Type} (a : α) : Ext (fun s => (a, s)) 0 :=
  ⟨fun _ h => ⟨h, rfl⟩, fun _ _ _ => rfl, fun _ => Nat.le_refl _, fun _ h => absurd h (Nat.not_lt_zero _)⟩

theorem Ext.bind {α β : Type} {R : IStream → α × IStream} {S : α → IStream → β × IStream} {n m : Nat} (h : Ext R n)
    (h' : ∀ a, Ext (S a) m) : Ext (fun s => S (R s).1 (R s).2) (n + m) := by
  refine ⟨fun s hs => ?_, fun s X hs => ?_, fun s => ?_, fun s hs hg => ?_⟩
  · obtain ⟨h1, h2⟩ := (h' _).good _ hs
    obtain ⟨h3, h4⟩ := h.good _ h1
    exact ⟨h3, by omega⟩
  · have h1 := (h' _).good _ hs
    have h2 := h.ext s X h1.1
    rw [h2]
    exact (h' _).ext _ X hs
  · exact Nat.le_trans ((h' _).le _) (h.le _)
  · by_contra hc
    rw [Bool.not_eq_false] at hc
    obtain ⟨h1, h2⟩ := (h' _).good _ hc
    obtain ⟨h3, h4⟩ := h.good _ h1
    have := (h' (R s).1).le (R s).2
    omega

namespace IStream

theorem read_reads (init e : List Byte) (h : e.length = init.length) : Reads (fun s => s.read init) e e := by
  intro rest
  unfold read
  simp only [if_true, List.length_append]
  rw [if_pos (by omega), ← h, List.take_left', List.drop_left'] <;> rfl

theorem read_eq (init e rest : List Byte) (h : e.length = init.length) :
    read ⟨e ++ rest, true⟩ init = (e, ⟨rest, true⟩) := read_reads init e h rest

theorem read_ext (init : List Byte) : Ext (fun s => s.read init) init.length := by
  refine ⟨fun s hs => ?_, fun s X hs => ?_, fun s => ?_, fun s hs hg => ?_⟩
  · unfold read at hs ⊢
    by_cases hg : s.good = true
    · rw [if_pos hg] at hs ⊢
      by_cases hl : init.length ≤ s.bytes.length
      · rw [if_pos hl]; exact ⟨hg, by simp; omega⟩
      · rw [if_neg hl] at hs; cases hs
    · rw [if_neg hg] at hs; exact absurd hs hg
  · unfold read app at *
    by_cases hg : s.good = true
    · rw [if_pos hg] at hs ⊢
      by_cases hl : init.length ≤ s.bytes.length
      · rw [if_pos hl, if_pos hg]
        have : init.length ≤ (s.bytes ++ X).length := by simp; omega
        dsimp only
        rw [if_pos this, List.take_append_of_le_length hl, List.drop_append_of_le_length hl]
      · rw [if_neg hl] at hs; cases hs
    · rw [if_neg hg] at hs; exact absurd hs hg
  · unfold read
    split
    · split
      · simp
      · simp
    · exact Nat.le_refl _
  · unfold read
    rw [if_pos hg, if_neg (by omega)]

theorem readFloat_reads {q : ℚ} (h : IsFloat32 q) : Reads readFloat (floatBytes q) q := by
  intro rest
  unfold readFloat
  dsimp only
  rw [read_eq (leBytes 4 0) (floatBytes q) rest (by rw [floatBytes_length, leBytes_length])]
  rw [float32_roundtrip h]

theorem readFloat_ext : Ext readFloat 4 :=
  Ext.bind (read_ext (leBytes 4 0)) fun a => Ext.pure (float32OfBits (ofLe a))

theorem readInt32_reads {i : Int} (h : -2147483648 ≤ i ∧ i ≤ 2147483647) (init : Int) :
    Reads (fun s => s.readInt32 init) (int32Bytes i) i := by
  intro rest
  unfold readInt32
  dsimp only
  rw [read_eq (int32Bytes init) (int32Bytes i) rest (by rw [int32Bytes_length, int32Bytes_length])]
  rw [ofInt32_int32 i h]

theorem readInt32_eq {i : Int} (h : -2147483648 ≤ i ∧ i ≤ 2147483647) (init : Int) (rest : List Byte) :
    readInt32 ⟨int32Bytes i ++ rest, true⟩ init = (i, ⟨rest, true⟩) := readInt32_reads h init rest

theorem readInt32_ext (init : Int) : Ext (fun s => s.readInt32 init) 4 := by
  have := Ext.bind (read_ext (int32Bytes init)) fun a => Ext.pure (ofInt32Bytes a)
  rw [int32Bytes_length] at this
  exact this

theorem readUInt64_reads {v : Nat} (h : v < 2 ^ 64) : Reads readUInt64 (leBytes 8 v) v := by
  intro rest
  unfold readUInt64
  dsimp only
  rw [read_eq (leBytes 8 0) (leBytes 8 v) rest (by rw [leBytes_length, leBytes_length]), ofLe_of_lt (by norm_num at h ⊢; exact h)]

theorem readUInt64_ext : Ext readUInt64 8 :=
  Ext.bind (read_ext (leBytes 8 0)) fun a => Ext.pure (ofLe a)

theorem readUInt8_reads {v : Nat} (h : v < 256) : Reads readUInt8 (leBytes 1 v) v := by
  intro rest
  unfold readUInt8
  dsimp only
  rw [read_eq (leBytes 1 0) (leBytes 1 v) rest (by rw [leBytes_length, leBytes_length]), ofLe_of_lt (by omega)]

theorem readUInt8_ext : Ext readUInt8 1 :=
  Ext.bind (read_ext (leBytes 1 0)) fun a => Ext.pure (ofLe a)

theorem readFloats_reads (n : Nat) (a : Fin n → ℚ) (h : ∀ i, IsFloat32 (a i)) :
    Reads (readFloats n) ((List.ofFn a).flatMap floatBytes) a := by
  induction n with
  | zero =>
    intro rest
    simp only [readFloats, List.ofFn_zero, List.flatMap_nil, List.nil_append]
    congr 1
    funext i; exact i.elim0
  | succ n ih =>
    intro rest
    rw [List.ofFn_succ, List.flatMap_cons, List.append_assoc]
    unfold readFloats
    dsimp only
    rw [readFloat_reads (h 0)]
    dsimp only
    rw [ih (fun i => a i.succ) (fun i => h i.succ)]
    dsimp only
    congr 1
    exact Fin.cons_self_tail a

theorem readFloats_ext (n : Nat) : Ext (readFloats n) (4 * n) := by
  induction n with
  | zero => exact Ext.pure _
  | succ n ih =>
    have := Ext.bind readFloat_ext fun a => Ext.bind ih fun b => Ext.pure (Fin.cons a b : Fin (n + 1) → ℚ)
    rw [show 4 * (n + 1) = 4 + (4 * n + 0) by omega]
    exact this

end IStream

namespace Streamable
open IStream

theorem readIndex3_reads {i : Index 3} (h : Int32Index i) : Reads readIndex3 (index3Bytes i) i := by
  intro rest
  unfold readIndex3 index3Bytes
  dsimp only
  rw [List.append_assoc, List.append_assoc, readInt32_eq (h 0)]
  dsimp only
  rw [readInt32_eq (h 1)]
  dsimp only
  rw [readInt32_eq (h 2)]
  dsimp only
  congr 1
  funext k
  match k with
  | 0 => rfl
  | 1 => rfl
  | 2 => rfl

theorem readIndex3_ext : Ext readIndex3 12 :=
  Ext.bind (readInt32_ext 0) fun x => Ext.bind (readInt32_ext 0) fun y => Ext.bind (readInt32_ext 0) fun z =>
    Ext.pure (![x, y, z] : Index 3)

theorem index3Bytes_length (i : Index 3) : (index3Bytes i).length = 12 := by
  simp [index3Bytes, int32Bytes_length]

theorem hashedBlocksHeader_reads {h : HashedBlocksHeader} (h1 : IsFloat32 h.minCellWidth) (h2 : IsFloat32 h.minLogOdds)
    (h3 : IsFloat32 h.maxLogOdds) (h4 : h.numBlocks < 2 ^ 64) : Reads HashedBlocksHeader.read h.bytes h := by
  intro rest
  unfold HashedBlocksHeader.read HashedBlocksHeader.bytes
  dsimp only
  rw [List.append_assoc, List.append_assoc, List.append_assoc, readFloat_reads h1]
  dsimp only
  rw [readFloat_reads h2]
  dsimp only
  rw [readFloat_reads h3]
  dsimp only
  rw [readUInt64_reads h4]

theorem hashedBlocksHeader_ext : Ext HashedBlocksHeader.read 20 :=
  Ext.bind readFloat_ext fun a => Ext.bind readFloat_ext fun b => Ext.bind readFloat_ext fun c =>
    Ext.bind readUInt64_ext fun n => Ext.pure (⟨a, b, c, n⟩ : HashedBlocksHeader)

theorem hashedBlocksHeader_length (h : HashedBlocksHeader) : h.bytes.length = 20 := by
  simp [HashedBlocksHeader.bytes, floatBytes_length, leBytes_length]

theorem node_reads {n : Node} (h1 : ∀ i, IsFloat32 (n.details i)) (h2 : n.bitset < 256) : Reads Node.read n.bytes n := by
  intro rest
  unfold Node.read Node.bytes
  dsimp only
  rw [List.append_assoc, readFloats_reads _ _ h1]
  dsimp only
  rw [readUInt8_reads h2]

theorem node_ext : Ext Node.read 29 :=
  Ext.bind (readFloats_ext (2 ^ 3 - 1)) fun d => Ext.bind readUInt8_ext fun b => Ext.pure (⟨d, b⟩ : Node)

theorem floats_length {n : Nat} (a : Fin n → ℚ) : ((List.ofFn a).flatMap floatBytes).length = 4 * n := by
  have : ∀ l : List ℚ, (l.flatMap floatBytes).length = 4 * l.length := by
    intro l
    induction l with
    | nil => rfl
    | cons x l ih => rw [List.flatMap_cons, List.length_append, ih, floatBytes_length, List.length_cons]; omega
  rw [this, List.length_ofFn]

theorem node_length (n : Node) : n.bytes.length = 29 := by
  unfold Node.bytes
  rw [List.length_append, floats_length, leBytes_length]; rfl

theorem waveletOctreeHeader_reads {h : WaveletOctreeHeader} (h1 : IsFloat32 h.minCellWidth) (h2 : IsFloat32 h.minLogOdds)
    (h3 : IsFloat32 h.maxLogOdds) (h4 : -2147483648 ≤ h.treeHeight ∧ h.treeHeight ≤ 2147483647) (h5 : IsFloat32 h.rootScale) :
    Reads WaveletOctreeHeader.read h.bytes h := by
  intro rest
  unfold WaveletOctreeHeader.read WaveletOctreeHeader.bytes
  dsimp only
  rw [List.append_assoc, List.append_assoc, List.append_assoc, List.append_assoc, readFloat_reads h1]
  dsimp only
  rw [readFloat_reads h2]
  dsimp only
  rw [readFloat_reads h3]
  dsimp only
  rw [readInt32_eq h4]
  dsimp only
  rw [readFloat_reads h5]

theorem waveletOctreeHeader_ext : Ext WaveletOctreeHeader.read 20 :=
  Ext.bind readFloat_ext fun a => Ext.bind readFloat_ext fun b => Ext.bind readFloat_ext fun c =>
    Ext.bind (readInt32_ext 0) fun h => Ext.bind readFloat_ext fun r => Ext.pure (⟨a, b, c, h, r⟩ : WaveletOctreeHeader)

theorem waveletOctreeHeader_length (h : WaveletOctreeHeader) : h.bytes.length = 20 := by
  simp [WaveletOctreeHeader.bytes, floatBytes_length, int32Bytes_length]

theorem blockHeader_reads {h : BlockHeader} (h1 : Int32Index h.offset) (h2 : IsFloat32 h.rootScale) :
    Reads BlockHeader.read h.bytes h := by
  intro rest
  unfold BlockHeader.read BlockHeader.bytes
  dsimp only
  rw [List.append_assoc, readIndex3_reads h1]
  dsimp only
  rw [readFloat_reads h2]

theorem blockHeader_ext : Ext BlockHeader.read 16 :=
  Ext.bind readIndex3_ext fun o => Ext.bind readFloat_ext fun r => Ext.pure (⟨o, r⟩ : BlockHeader)

theorem hashedWaveletHeader_reads {h : HashedWaveletOctreeHeader} (h1 : IsFloat32 h.minCellWidth) (h2 : IsFloat32 h.minLogOdds)
    (h3 : IsFloat32 h.maxLogOdds) (h4 : -2147483648 ≤ h.treeHeight ∧ h.treeHeight ≤ 2147483647) (h5 : h.numBlocks < 2 ^ 64) :
    Reads HashedWaveletOctreeHeader.read h.bytes h := by
  intro rest
  unfold HashedWaveletOctreeHeader.read HashedWaveletOctreeHeader.bytes
  dsimp only
  rw [List.append_assoc, List.append_assoc, List.append_assoc, List.append_assoc, readFloat_reads h1]
  dsimp only
  rw [readFloat_reads h2]
  dsimp only
  rw [readFloat_reads h3]
  dsimp only
  rw [readInt32_eq h4]
  dsimp only
  rw [readUInt64_reads h5]

theorem hashedWaveletHeader_ext : Ext HashedWaveletOctreeHeader.read 24 :=
  Ext.bind readFloat_ext fun a => Ext.bind readFloat_ext fun b => Ext.bind readFloat_ext fun c =>
    Ext.bind (readInt32_ext 0) fun h => Ext.bind readUInt64_ext fun n => Ext.pure (⟨a, b, c, h, n⟩ : HashedWaveletOctreeHeader)

theorem hashedWaveletHeader_length (h : HashedWaveletOctreeHeader) : h.bytes.length = 24 := by
  simp [HashedWaveletOctreeHeader.bytes, floatBytes_length, int32Bytes_length, leBytes_length]

theorem readFormat_ext : Ext readFormat 4 := readInt32_ext (-1)

theorem readFormat_reads {i : Int} (h : -2147483648 ≤ i ∧ i ≤ 2147483647) : Reads readFormat (formatBytes i) i :=
  readInt32_reads h (-1)

end Streamable
end Wavemap
