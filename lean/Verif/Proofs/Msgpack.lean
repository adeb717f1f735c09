import Verif.Spec.Msgpack
/-
Reading a MessagePack image back.
-/
namespace IndraDB
namespace Unpack

/-- The reader takes exactly `w` from the front, whatever follows, and returns `a`. -/
def Takes {α : Type} (p : Unpack α) (w : Bytes) (a : α) : Prop := ∀ r, p (w ++ r) = some (a, r)

/-- A reader that succeeds does the same if the file is longer. -/
def Ext {α : Type} (p : Unpack α) : Prop := ∀ b a r x, p b = some (a, r) → p (b ++ x) = some (a, r ++ x)

section
variable {α β : Type}

theorem Takes.ret (a : α) : Takes (ret a) [] a := fun _ => rfl

theorem Takes.bind {p : Unpack α} {f : α → Unpack β} {w w' : Bytes} {a : α} {c : β} (h : Takes p w a) (h' : Takes (f a) w' c) :
    Takes (p.bind f) (w ++ w') c := by
  intro r
  simp only [Unpack.bind, List.append_assoc, h (w' ++ r)]
  exact h' r

theorem Takes.then {p : Unpack α} {f : α → Unpack β} {w : Bytes} {a : α} {c : β} (h : Takes p w a) (h' : Takes (f a) [] c) :
    Takes (p.bind f) w c := by
  have := h.bind h'
  rwa [List.append_nil] at this

theorem Takes.byte (x : UInt8) : Takes byte [x] x := fun _ => rfl

theorem Takes.take : ∀ s : Bytes, Takes (take s.length) s s
  | [] => Takes.ret _
  | x :: s => (Takes.byte x).bind ((Takes.take s).then (Takes.ret _))

theorem Ext.ret (a : α) : Ext (ret a) := by
  intro b a' r x h
  cases h; rfl

theorem Ext.fail : Ext (fail : Unpack α) := by
  intro b a' r x h
  cases h

theorem Ext.bind {p : Unpack α} {f : α → Unpack β} (hp : Ext p) (hf : ∀ a, Ext (f a)) : Ext (p.bind f) := by
  intro b c r x h
  unfold Unpack.bind at h ⊢
  cases hb : p b with
  | none => rw [hb] at h; cases h
  | some ar =>
    obtain ⟨a, r1⟩ := ar
    rw [hb] at h
    simp only [hp b a r1 x hb]
    exact hf a r1 c r x h

theorem Ext.byte : Ext byte := by
  intro b a r x h
  cases b with
  | nil => cases h
  | cons y l => cases h; rfl

theorem Ext.take : ∀ n, Ext (take n)
  | 0 => Ext.ret _
  | n + 1 => Ext.byte.bind fun _ => (Ext.take n).bind fun _ => Ext.ret _

theorem Ext.nat (k : Nat) : Ext (nat k) := (Ext.take k).bind fun _ => Ext.ret _

theorem Ext.rep {p : Unpack α} (hp : Ext p) : ∀ n, Ext (rep p n)
  | 0 => Ext.ret _
  | n + 1 => hp.bind fun _ => (Ext.rep hp n).bind fun _ => Ext.ret _

theorem Ext.ite {c : Prop} [Decidable c] {p q : Unpack α} (hp : Ext p) (hq : Ext q) : Ext (if c then p else q) := by
  split
  · exact hp
  · exact hq

/-- Reading elements one after the other. -/
theorem Takes.rep {p : Unpack α} {f : α → Bytes} : ∀ l : List α, (∀ a ∈ l, Takes p (f a) a) → Takes (rep p l.length) (packAll f l) l
  | [], _ => Takes.ret _
  | a :: l, h => (h a List.mem_cons_self).bind
      ((Takes.rep l (fun a ha => h a (List.mem_cons_of_mem _ ha))).then (Takes.ret _))

end

/-! ### Numbers -/

theorem be_length : ∀ k n, (be k n).length = k
  | 0, _ => rfl
  | k + 1, n => by simp [be, be_length k n]

theorem ofBe_be : ∀ k n acc, ofBe acc (be k n) = acc * 256 ^ k + n % 256 ^ k
  | 0, n, acc => by simp [be, ofBe, Nat.mod_one]
  | k + 1, n, acc => by
    simp only [be, ofBe, ofBe_be k n]
    have h1 : (UInt8.ofNat (n / 256 ^ k)).toNat = n / 256 ^ k % 256 := by simp [UInt8.toNat_ofNat']
    rw [h1]
    have h2 : n % 256 ^ (k + 1) = n % 256 ^ k + 256 ^ k * (n / 256 ^ k % 256) := by
      rw [Nat.pow_succ, Nat.mod_mul]
    rw [h2, Nat.pow_succ, Nat.add_mul, Nat.mul_comm (256 ^ k) (n / 256 ^ k % 256), Nat.mul_assoc, Nat.mul_comm 256 (256 ^ k)]
    omega

theorem Takes.nat {k n : Nat} (h : n < 256 ^ k) : Takes (nat k) (be k n) n := by
  have h1 : Takes (Unpack.take k) (be k n) (be k n) := by
    have := Takes.take (be k n)
    rwa [be_length] at this
  refine h1.then ?_
  have : ofBe 0 (be k n) = n := by rw [ofBe_be, Nat.mod_eq_of_lt h]; omega
  rw [this]
  exact Takes.ret _

end Unpack

open Unpack

/-! ### Markers -/

theorem Ext.item : Ext unpackItem := by
  have hb : ∀ (k : Nat) (f : Bytes → PackItem), Ext ((nat k).bind fun n => (take n).bind fun s => ret (f s)) := fun k f =>
    (Ext.nat k).bind fun _ => (Ext.take _).bind fun _ => Ext.ret _
  have hn : ∀ (k : Nat) (f : Nat → PackItem), Ext ((nat k).bind fun n => ret (f n)) := fun k f =>
    (Ext.nat k).bind fun _ => Ext.ret _
  have hs : ∀ k, Ext (unpackSigned k) := fun k => (Ext.nat k).bind fun _ => Ext.ite (Ext.ret _) (Ext.ret _)
  refine Ext.byte.bind fun x => ?_
  refine Ext.ite (Ext.ret _) (Ext.ite (Ext.ret _) (Ext.ite (Ext.ret _) (Ext.ite ((Ext.take _).bind fun _ => Ext.ret _) ?_)))
  refine Ext.ite (Ext.ret _) (Ext.ite (Ext.ret _) (Ext.ite (Ext.ret _) ?_))
  refine Ext.ite (hb _ _) (Ext.ite (hb _ _) (Ext.ite (hb _ _) ?_))
  refine Ext.ite (hn _ _) (Ext.ite (hn _ _) (Ext.ite (hn _ _) (Ext.ite (hn _ _) (Ext.ite (hn _ _) ?_))))
  refine Ext.ite (hs _) (Ext.ite (hs _) (Ext.ite (hs _) (Ext.ite (hs _) ?_)))
  refine Ext.ite (hb _ _) (Ext.ite (hb _ _) (Ext.ite (hb _ _) ?_))
  refine Ext.ite (hn _ _) (Ext.ite (hn _ _) (Ext.ite (hn _ _) (Ext.ite (hn _ _) ?_)))
  exact Ext.ite Ext.fail (Ext.ret _)

/-- Reading a marker: what is done after the first byte. -/
theorem item_byte (x : UInt8) {w : Bytes} {i : PackItem} {p : Unpack PackItem}
    (hp : ∀ r, unpackItem (x :: r) = p r) (h : Takes p w i) : Takes unpackItem (x :: w) i := by
  intro r
  rw [List.cons_append, hp]
  exact h r

theorem reads_uint {n : Nat} (h : n < 18446744073709551616) : Takes unpackItem (packUint n) (.uint n) := by
  unfold packUint
  split
  · rename_i h1
    refine item_byte _ (p := ret (.uint n)) (fun r => ?_) (Takes.ret _)
    have h2 : (UInt8.ofNat n).toNat = n := by simp [UInt8.toNat_ofNat']; omega
    simp only [unpackItem, Unpack.bind, Unpack.byte, h2]
    simp [show n < 0x80 by omega]
  split
  · exact item_byte _ (p := (nat 1).bind fun n => ret (.uint n)) (fun r => rfl) ((Takes.nat (by omega)).then (Takes.ret _))
  split
  · exact item_byte _ (p := (nat 2).bind fun n => ret (.uint n)) (fun r => rfl) ((Takes.nat (by omega)).then (Takes.ret _))
  split
  · exact item_byte _ (p := (nat 4).bind fun n => ret (.uint n)) (fun r => rfl) ((Takes.nat (by omega)).then (Takes.ret _))
  · exact item_byte _ (p := (nat 8).bind fun n => ret (.uint n)) (fun r => rfl) ((Takes.nat (by omega)).then (Takes.ret _))

theorem reads_signed {k m : Nat} (h : 2 * (m + 1) ≤ 256 ^ k) : Takes (unpackSigned k) (be k (256 ^ k - 1 - m)) (.sint m) := by
  refine (Takes.nat (by omega)).then ?_
  rw [if_neg (by omega), show 256 ^ k - 1 - (256 ^ k - 1 - m) = m by omega]
  exact Takes.ret _

theorem reads_sint {m : Nat} (h : m < 9223372036854775808) : Takes unpackItem (packSint m) (.sint m) := by
  unfold packSint
  split
  · rename_i h1
    refine item_byte _ (p := ret (.sint m)) (fun r => ?_) (Takes.ret _)
    have h2 : (UInt8.ofNat (255 - m)).toNat = 255 - m := by simp [UInt8.toNat_ofNat']; omega
    simp only [unpackItem, Unpack.bind, Unpack.byte, h2]
    repeat rw [if_neg (by omega)]
    rw [show 255 - (255 - m) = m by omega]
  split
  · exact item_byte _ (p := unpackSigned 1) (fun r => rfl) (reads_signed (by omega))
  split
  · exact item_byte _ (p := unpackSigned 2) (fun r => rfl) (reads_signed (by omega))
  split
  · exact item_byte _ (p := unpackSigned 4) (fun r => rfl) (reads_signed (by omega))
  · exact item_byte _ (p := unpackSigned 8) (fun r => rfl) (reads_signed (by omega))

theorem reads_f64 {n : Nat} (h : n < 18446744073709551616) : Takes unpackItem (0xcb :: be 8 n) (.f64 n) :=
  item_byte _ (p := (nat 8).bind fun n => ret (.f64 n)) (fun r => rfl) ((Takes.nat (by omega)).then (Takes.ret _))

theorem reads_str {s : Bytes} (h : s.length < 4294967296) : Takes unpackItem (packStr s) (.str s) := by
  unfold packStr
  split
  · rename_i h1
    refine item_byte _ (p := (take s.length).bind fun s => ret (.str s)) (fun r => ?_) ((Takes.take s).then (Takes.ret _))
    have h2 : (UInt8.ofNat (0xa0 + s.length)).toNat = 0xa0 + s.length := by simp [UInt8.toNat_ofNat']; omega
    simp only [unpackItem, Unpack.bind, Unpack.byte, h2]
    rw [if_neg (by omega), if_neg (by omega), if_neg (by omega), if_pos (by omega), show 0xa0 + s.length - 0xa0 = s.length by omega]
    rfl
  have key : ∀ k, s.length < 256 ^ k →
      Takes ((nat k).bind fun n => (take n).bind fun s => ret (PackItem.str s)) (be k s.length ++ s) (.str s) := fun k hk =>
    (Takes.nat hk).bind ((Takes.take s).then (Takes.ret _))
  split
  · exact item_byte _ (fun r => rfl) (key 1 (by omega))
  split
  · exact item_byte _ (fun r => rfl) (key 2 (by omega))
  · exact item_byte _ (fun r => rfl) (key 4 (by omega))

theorem reads_arr {n : Nat} (h : n < 4294967296) : Takes unpackItem (packArr n) (.arr n) := by
  unfold packArr
  split
  · rename_i h1
    refine item_byte _ (p := ret (.arr n)) (fun r => ?_) (Takes.ret _)
    have h2 : (UInt8.ofNat (0x90 + n)).toNat = 0x90 + n := by simp [UInt8.toNat_ofNat']; omega
    simp only [unpackItem, Unpack.bind, Unpack.byte, h2]
    rw [if_neg (by omega), if_neg (by omega), if_pos (by omega), show 0x90 + n - 0x90 = n by omega]
  split
  · exact item_byte _ (p := (nat 2).bind fun n => ret (.arr n)) (fun r => rfl) ((Takes.nat (by omega)).then (Takes.ret _))
  · exact item_byte _ (p := (nat 4).bind fun n => ret (.arr n)) (fun r => rfl) ((Takes.nat (by omega)).then (Takes.ret _))

theorem reads_map {n : Nat} (h : n < 4294967296) : Takes unpackItem (packMap n) (.map n) := by
  unfold packMap
  split
  · rename_i h1
    refine item_byte _ (p := ret (.map n)) (fun r => ?_) (Takes.ret _)
    have h2 : (UInt8.ofNat (0x80 + n)).toNat = 0x80 + n := by simp [UInt8.toNat_ofNat']; omega
    simp only [unpackItem, Unpack.bind, Unpack.byte, h2]
    rw [if_neg (by omega), if_pos (by omega), show 0x80 + n - 0x80 = n by omega]
  split
  · exact item_byte _ (p := (nat 2).bind fun n => ret (.map n)) (fun r => rfl) ((Takes.nat (by omega)).then (Takes.ret _))
  · exact item_byte _ (p := (nat 4).bind fun n => ret (.map n)) (fun r => rfl) ((Takes.nat (by omega)).then (Takes.ret _))

theorem reads_bin16 {s : Bytes} (h : s.length = 16) : Takes unpackItem (0xc4 :: 16 :: s) (.bin s) := by
  refine item_byte _ (p := (nat 1).bind fun n => (take n).bind fun s => ret (.bin s)) (fun r => rfl) ?_
  have : Takes (nat 1) [16] 16 := Takes.nat (k := 1) (n := 16) (by decide)
  refine this.bind (w' := s) ?_
  rw [← h]
  exact (Takes.take s).then (Takes.ret _)

/-! ### Floats -/

theorem ofBits_toBits (f : F64) : F64.ofBits f.toBits = some f ∧ f.toBits < 18446744073709551616 := by
  obtain ⟨neg, ⟨e, he⟩, ⟨m, hm⟩⟩ := f
  have h0 : ∀ s : Nat, s ≤ 1 → ((s * 2 ^ 63 + e * 2 ^ 52 + m) / 2 ^ 52 % 2048 = e ∧
      (s * 2 ^ 63 + e * 2 ^ 52 + m) % 4503599627370496 = m ∧ (2 ^ 63 ≤ s * 2 ^ 63 + e * 2 ^ 52 + m ↔ s = 1) ∧
      s * 2 ^ 63 + e * 2 ^ 52 + m < 18446744073709551616) := by
    intro s hs
    refine ⟨by omega, by omega, by omega, by omega⟩
  cases neg with
  | false =>
    obtain ⟨h1, h2, h3, h4⟩ := h0 0 (by omega)
    have hb : F64.toBits ⟨false, ⟨e, he⟩, ⟨m, hm⟩⟩ = 0 * 2 ^ 63 + e * 2 ^ 52 + m := by simp [F64.toBits]
    rw [hb]
    refine ⟨?_, h4⟩
    unfold F64.ofBits
    simp only [h1, h2, he, dif_pos]
    have : ¬ (2 ^ 63 ≤ 0 * 2 ^ 63 + e * 2 ^ 52 + m) := fun h => by have := h3.1 h; omega
    simp only [this, decide_false]
  | true =>
    obtain ⟨h1, h2, h3, h4⟩ := h0 1 (by omega)
    have hb : F64.toBits ⟨true, ⟨e, he⟩, ⟨m, hm⟩⟩ = 1 * 2 ^ 63 + e * 2 ^ 52 + m := by simp [F64.toBits]
    rw [hb]
    refine ⟨?_, h4⟩
    unfold F64.ofBits
    simp only [h1, h2, he, dif_pos]
    simp only [h3.2 rfl, decide_true]

/-! ### Values -/

def JArr.elems : JArr → List Json
  | .nil => []
  | .cons v r => v :: r.elems

def JObj.entries : JObj → List (Bytes × Json)
  | .nil => []
  | .cons k v r => (k, v) :: r.entries

def JObj.append : JObj → JObj → JObj
  | .nil, o => o
  | .cons k v r, o => .cons k v (r.append o)

/-- All keys are smaller than `k`. -/
def JObj.Below (k : Bytes) : JObj → Prop
  | .nil => True
  | .cons k' _ r => Order.lt k' k = true ∧ r.Below k

theorem JArr.ofElems_elems : ∀ a : JArr, JArr.ofElems a.elems = a
  | .nil => rfl
  | .cons v r => by simp only [JArr.elems, JArr.ofElems, JArr.ofElems_elems r]

theorem JObj.insert_last (k : Bytes) (v : Json) : ∀ o : JObj, o.Below k → o.insert k v = o.append (.cons k v .nil)
  | .nil, _ => rfl
  | .cons k' v' r, h => by
    simp only [JObj.insert, JObj.append, Order.asymm h.1, h.1, Bool.false_eq_true, if_false, if_true, JObj.insert_last k v r h.2]

theorem JObj.append_assoc : ∀ a b c : JObj, (a.append b).append c = a.append (b.append c)
  | .nil, _, _ => rfl
  | .cons k v r, b, c => by simp only [JObj.append, JObj.append_assoc r b c]

theorem JObj.append_nil : ∀ a : JObj, a.append .nil = a
  | .nil => rfl
  | .cons k v r => by simp only [JObj.append, JObj.append_nil r]

theorem JObj.below_append {k : Bytes} : ∀ a b : JObj, a.Below k → b.Below k → (a.append b).Below k
  | .nil, _, _, h => h
  | .cons _ _ r, b, h, h' => ⟨h.1, JObj.below_append r b h.2 h'⟩

theorem JObj.below_trans {k k' : Bytes} (hk : Order.lt k k' = true) : ∀ a : JObj, a.Below k → a.Below k'
  | .nil, _ => trivial
  | .cons _ _ r, h => ⟨Order.trans _ _ _ h.1 hk, JObj.below_trans hk r h.2⟩

/-- All keys of `a` are smaller than the first key of `o`. -/
def JObj.Before (a : JObj) : JObj → Prop
  | .nil => True
  | .cons k _ _ => a.Below k

theorem JObj.above_before {k : Bytes} {v : Json} {a : JObj} : ∀ {r : JObj}, a.Below k → r.Above k →
    (a.append (.cons k v .nil)).Before r
  | .nil, _, _ => trivial
  | .cons _ _ _, ha, hr => JObj.below_append _ _ (JObj.below_trans hr.1 _ ha) ⟨hr.1, trivial⟩

theorem JObj.ofEntries_entries {utf8 : Bytes → Bool} : ∀ (o acc : JObj), o.Typed utf8 → acc.Before o →
    JObj.ofEntries acc o.entries = acc.append o
  | .nil, acc, _, _ => by simp only [JObj.entries, JObj.ofEntries, JObj.append_nil]
  | .cons k v r, acc, ht, hb => by
    simp only [JObj.entries, JObj.ofEntries]
    rw [JObj.insert_last k v acc hb, JObj.ofEntries_entries r _ ht.2.2.2 (JObj.above_before hb ht.2.1), JObj.append_assoc]
    rfl

theorem packStr_le (s : Bytes) : s.length < (packStr s).length := by
  unfold packStr
  simp only [List.length_append]
  split <;> (try split) <;> (try split) <;> simp [be_length] <;> omega

theorem pack_pos (v : Json) : 0 < v.pack.length := by
  cases v with
  | null => simp [Json.pack]
  | bool b => cases b <;> simp [Json.pack]
  | num n =>
    cases n with
    | posInt n => simp only [Json.pack, Num.pack, packUint]; split <;> (try split) <;> (try split) <;> (try split) <;> simp
    | negInt n => simp only [Json.pack, Num.pack, packSint]; split <;> (try split) <;> (try split) <;> (try split) <;> simp
    | float f => simp [Json.pack, Num.pack]
  | str s => have := packStr_le s; simp only [Json.pack]; omega
  | arr a => simp only [Json.pack, packArr, List.length_append]; split <;> (try split) <;> simp <;> omega
  | obj o => simp only [Json.pack, packMap, List.length_append]; split <;> (try split) <;> simp <;> omega

theorem JArr.length_le : ∀ a : JArr, a.length ≤ a.pack.length
  | .nil => Nat.le_refl _
  | .cons v r => by
    have := JArr.length_le r
    have := pack_pos v
    simp only [JArr.length, JArr.pack, List.length_append]
    omega

theorem JObj.length_le : ∀ o : JObj, o.length ≤ o.pack.length
  | .nil => Nat.le_refl _
  | .cons k v r => by
    have := JObj.length_le r
    have := pack_pos v
    simp only [JObj.length, JObj.pack, List.length_append]
    omega

theorem takes_str {utf8 : Bytes → Bool} {s : Bytes} (hu : utf8 s = true) (h : s.length < 4294967296) :
    Takes (unpackStr utf8) (packStr s) s := by
  refine (reads_str h).then ?_
  simp only [hu, if_true]
  exact Takes.ret _

/-- After the marker of a value. -/
def unpackRest (utf8 : Bytes → Bool) (c : Nat) : PackItem → Unpack Json
  | .nil => ret .null
  | .bool b => ret (.bool b)
  | .uint n => if h : n < 18446744073709551616 then ret (.num (.posInt ⟨n, h⟩)) else fail
  | .sint m => if h : m < 9223372036854775808 then ret (.num (.negInt ⟨m, h⟩)) else fail
  | .f64 n => match F64.ofBits n with
    | some f => ret (.num (.float f))
    | none => ret .null
  | .str s => if utf8 s then ret (.str s) else fail
  | .bin _ => fail
  | .arr n => if c = 0 then fail else (rep (unpackJson utf8 c) n).bind fun l => ret (.arr (JArr.ofElems l))
  | .map n => if c = 0 then fail else
    (rep ((unpackStr utf8).bind fun k => (unpackJson utf8 c).bind fun v => ret (k, v)) n).bind fun l =>
      ret (.obj (JObj.ofEntries .nil l))

theorem unpackJson_succ (utf8 : Bytes → Bool) (c : Nat) : unpackJson utf8 (c + 1) = unpackItem.bind (unpackRest utf8 c) := by
  rw [unpackJson]
  congr 1

theorem reads_nil : Takes unpackItem [0xc0] .nil := item_byte 0xc0 (p := ret .nil) (fun _ => rfl) (Takes.ret _)
theorem reads_false : Takes unpackItem [0xc2] (.bool false) := item_byte 0xc2 (p := ret (.bool false)) (fun _ => rfl) (Takes.ret _)
theorem reads_true : Takes unpackItem [0xc3] (.bool true) := item_byte 0xc3 (p := ret (.bool true)) (fun _ => rfl) (Takes.ret _)

theorem rest_uint {utf8 : Bytes → Bool} {c : Nat} (n : Fin 18446744073709551616) :
    unpackRest utf8 c (.uint n.val) = ret (.num (.posInt n)) := by
  unfold unpackRest
  dsimp only
  rw [dif_pos n.isLt]

theorem rest_sint {utf8 : Bytes → Bool} {c : Nat} (n : Fin 9223372036854775808) :
    unpackRest utf8 c (.sint n.val) = ret (.num (.negInt n)) := by
  unfold unpackRest
  dsimp only
  rw [dif_pos n.isLt]

theorem rest_f64 {utf8 : Bytes → Bool} {c n : Nat} {f : F64} (h : F64.ofBits n = some f) :
    unpackRest utf8 c (.f64 n) = ret (.num (.float f)) := by
  unfold unpackRest
  dsimp only
  rw [h]

theorem takes_uint {utf8 : Bytes → Bool} (n : Fin 18446744073709551616) (c : Nat) :
    Takes (unpackItem.bind (unpackRest utf8 c)) (packUint n.val) (.num (.posInt n)) := by
  have h := reads_uint n.isLt
  have h2 : Takes (unpackRest utf8 c (.uint n.val)) [] (.num (.posInt n)) := by rw [rest_uint]; exact Takes.ret _
  exact Takes.then h h2

theorem takes_sint {utf8 : Bytes → Bool} (n : Fin 9223372036854775808) (c : Nat) :
    Takes (unpackItem.bind (unpackRest utf8 c)) (packSint n.val) (.num (.negInt n)) := by
  have h := reads_sint n.isLt
  have h2 : Takes (unpackRest utf8 c (.sint n.val)) [] (.num (.negInt n)) := by rw [rest_sint]; exact Takes.ret _
  exact Takes.then h h2

theorem takes_f64 {utf8 : Bytes → Bool} (f : F64) (c : Nat) :
    Takes (unpackItem.bind (unpackRest utf8 c)) (0xcb :: be 8 f.toBits) (.num (.float f)) := by
  have h := reads_f64 (ofBits_toBits f).2
  have h2 : Takes (unpackRest utf8 c (.f64 f.toBits)) [] (.num (.float f)) := by
    rw [rest_f64 (ofBits_toBits f).1]; exact Takes.ret _
  exact Takes.then h h2

theorem takes_num {utf8 : Bytes → Bool} (n : Num) (c : Nat) : Takes (unpackItem.bind (unpackRest utf8 c)) n.pack (.num n) := by
  cases n with
  | posInt n => exact takes_uint n c
  | negInt m => exact takes_sint m c
  | float f => exact takes_f64 f c

theorem takes_arr {utf8 : Bytes → Bool} {a : JArr} {c : Nat} (hn : a.length < 4294967296) (hc : c ≠ 0)
    (h : Takes (rep (unpackJson utf8 c) a.length) a.pack a.elems) :
    Takes (unpackItem.bind (unpackRest utf8 c)) (packArr a.length ++ a.pack) (.arr a) := by
  refine (reads_arr hn).bind ?_
  unfold unpackRest
  dsimp only
  rw [if_neg hc]
  refine h.then ?_
  rw [JArr.ofElems_elems]
  exact Takes.ret _

theorem takes_obj {utf8 : Bytes → Bool} {o : JObj} {c : Nat} (ht : o.Typed utf8) (hn : o.length < 4294967296) (hc : c ≠ 0)
    (h : Takes (rep ((unpackStr utf8).bind fun k => (unpackJson utf8 c).bind fun v => ret (k, v)) o.length) o.pack o.entries) :
    Takes (unpackItem.bind (unpackRest utf8 c)) (packMap o.length ++ o.pack) (.obj o) := by
  refine (reads_map hn).bind ?_
  unfold unpackRest
  dsimp only
  rw [if_neg hc]
  refine h.then ?_
  rw [JObj.ofEntries_entries o .nil ht (by cases o <;> trivial)]
  exact Takes.ret _

mutual
theorem Json.takes {utf8 : Bytes → Bool} : ∀ (v : Json) (c : Nat), v.Typed utf8 → v.levels ≤ c → v.pack.length < 4294967296 →
    Takes (unpackItem.bind (unpackRest utf8 c)) v.pack v
  | .null, c, _, _, _ => reads_nil.then (Takes.ret _)
  | .bool false, c, _, _, _ => reads_false.then (Takes.ret _)
  | .bool true, c, _, _, _ => reads_true.then (Takes.ret _)
  | .num n, c, _, _, _ => takes_num n c
  | .str s, c, ht, _, hl => by
    have := packStr_le s
    have hl' : (packStr s).length < 4294967296 := hl
    refine (reads_str (by omega)).then ?_
    unfold unpackRest
    dsimp only
    rw [if_pos (show utf8 s = true from ht)]
    exact Takes.ret _
  | .arr a, 0, ht, hc, hl => by simp only [Json.levels] at hc; omega
  | .obj o, 0, ht, hc, hl => by simp only [Json.levels] at hc; omega
  | .arr a, c + 1, ht, hc, hl => by
    simp only [Json.pack, List.length_append] at hl
    simp only [Json.levels] at hc
    have := JArr.length_le a
    exact takes_arr (by omega) (by omega) (JArr.takes a c ht (by omega) (by omega))
  | .obj o, c + 1, ht, hc, hl => by
    simp only [Json.pack, List.length_append] at hl
    simp only [Json.levels] at hc
    have := JObj.length_le o
    exact takes_obj ht (by omega) (by omega) (JObj.takes o c ht (by omega) (by omega))
theorem JArr.takes {utf8 : Bytes → Bool} : ∀ (a : JArr) (c : Nat), a.Typed utf8 → a.levels ≤ c → a.pack.length < 4294967296 →
    Takes (rep (unpackJson utf8 (c + 1)) a.length) a.pack a.elems
  | .nil, _, _, _, _ => Takes.ret _
  | .cons v r, c, ht, hc, hl => by
    simp only [JArr.pack, List.length_append, JArr.levels] at hl hc
    have h1 := Json.takes v c ht.1 (by omega) (by omega)
    rw [← unpackJson_succ] at h1
    exact h1.bind ((JArr.takes r c ht.2 (by omega) (by omega)).then (Takes.ret _))
theorem JObj.takes {utf8 : Bytes → Bool} : ∀ (o : JObj) (c : Nat), o.Typed utf8 → o.levels ≤ c → o.pack.length < 4294967296 →
    Takes (rep ((unpackStr utf8).bind fun k => (unpackJson utf8 (c + 1)).bind fun v => ret (k, v)) o.length) o.pack o.entries
  | .nil, _, _, _, _ => Takes.ret _
  | .cons k v r, c, ht, hc, hl => by
    simp only [JObj.pack, List.length_append, JObj.levels] at hl hc
    have := packStr_le k
    have h1 := Json.takes v c ht.2.2.1 (by omega) (by omega)
    rw [← unpackJson_succ] at h1
    exact ((takes_str ht.1 (by omega)).bind (h1.then (Takes.ret (k, v)))).bind
      ((JObj.takes r c ht.2.2.2 (by omega) (by omega)).then (Takes.ret _))
end

theorem takes_json {utf8 : Bytes → Bool} {v : Json} {c : Nat} (ht : v.Typed utf8) (hc : v.levels + 1 ≤ c)
    (hl : v.pack.length < 4294967296) : Takes (unpackJson utf8 c) v.pack v := by
  obtain ⟨c, rfl⟩ : ∃ k, c = k + 1 := ⟨c - 1, by omega⟩
  rw [unpackJson_succ]
  exact Json.takes v c ht (by omega) hl

/-! ### The fields -/

theorem takes_uuid (u : Uuid) : Takes unpackUuid u.pack u := by
  refine (reads_bin16 u.len).then ?_
  simp only [Uuid.ofBytes?, u.len, dif_pos]
  exact Takes.ret _

theorem takes_identifier {utf8 : Bytes → Bool} {i : Identifier} (h : i.Typed utf8) : Takes (unpackIdentifier utf8) i.pack i := by
  have := i.len
  refine (takes_str h (by omega)).then ?_
  simp only [this, dif_pos]
  exact Takes.ret _

theorem takes_fields {α : Type} {n c : Nat} {p : Nat → Unpack α} {w : Bytes} {a : α} (hn : n < 4294967296) (hc : 2 ≤ c)
    (h : Takes (p (c - 1)) w a) : Takes (unpackFields n c p) (packArr n ++ w) a := by
  refine (reads_arr hn).bind ?_
  simp only [show ¬ c ≤ 1 by omega, if_false, if_true]
  exact h

theorem takes_seq {α : Type} {c : Nat} {p : Nat → Unpack α} {f : α → Bytes} {l : List α} (hn : l.length < 4294967296) (hc : 2 ≤ c)
    (h : ∀ a ∈ l, Takes (p (c - 1)) (f a) a) : Takes (unpackSeq c p) (packArr l.length ++ packAll f l) l := by
  refine (reads_arr hn).bind ?_
  simp only [show ¬ c ≤ 1 by omega, if_false]
  exact Takes.rep l h

theorem takes_entries {α β : Type} {c : Nat} {p : Nat → Unpack α} {q : Nat → Unpack β} {f : α → Bytes} {g : β → Bytes}
    {l : List (α × β)} (hn : l.length < 4294967296) (hc : 2 ≤ c)
    (h : ∀ e ∈ l, Takes (p (c - 1)) (f e.1) e.1 ∧ Takes (q (c - 1)) (g e.2) e.2) :
    Takes (unpackEntries c p q) (packMap l.length ++ packAll (fun e => f e.1 ++ g e.2) l) l := by
  refine (reads_map hn).bind ?_
  simp only [show ¬ c ≤ 1 by omega, if_false]
  exact Takes.rep l (fun e he => (h e he).1.bind ((h e he).2.then (Takes.ret _)))

theorem takes_edge {utf8 : Bytes → Bool} {e : Edge} {c : Nat} (h : e.t.Typed utf8) (hc : 2 ≤ c) : Takes (unpackEdge utf8 c) e.pack e :=
  takes_fields (by omega) hc ((takes_uuid _).bind ((takes_identifier h).bind ((takes_uuid _).then (Takes.ret _))))

theorem takes_member {utf8 : Bytes → Bool} {m : Member} {c : Nat} (hv : utf8 [86, 101, 114, 116, 101, 120] = true)
    (he : utf8 [69, 100, 103, 101] = true) (h : m.Holds (·.Typed utf8)) (hc : 2 ≤ c) :
    Takes (unpackMember utf8 c) m.pack m := by
  cases m with
  | inl u =>
    refine (reads_map (by omega)).bind ?_
    simp only [if_true]
    refine (takes_str hv (by decide)).bind ?_
    simp only [if_true]
    exact (takes_uuid u).then (Takes.ret _)
  | inr e =>
    refine (reads_map (by omega)).bind ?_
    simp only [if_true]
    refine (takes_str he (by decide)).bind ?_
    simp only [show ([69, 100, 103, 101] : Bytes) ≠ [86, 101, 114, 116, 101, 120] by decide, if_false, if_true]
    exact (takes_edge h hc).then (Takes.ret _)

/-! ### The image -/

theorem packAll_mem {α : Type} {f : α → Bytes} : ∀ {l : List α} {a : α}, a ∈ l → (f a).length ≤ (packAll f l).length
  | b :: l, a, h => by
    simp only [packAll, List.length_append]
    rcases List.mem_cons.1 h with rfl | h
    · omega
    · have := packAll_mem (f := f) h; omega

theorem packAll_length {α : Type} {f : α → Bytes} (hf : ∀ a, 0 < (f a).length) : ∀ l : List α, l.length ≤ (packAll f l).length
  | [] => Nat.zero_le _
  | a :: l => by
    have := hf a
    have := packAll_length hf l
    simp only [packAll, List.length_append, List.length_cons]
    omega

theorem Uuid.pack_pos (u : Uuid) : 0 < u.pack.length := by simp [Uuid.pack]
theorem Identifier.pack_pos (i : Identifier) : 0 < i.pack.length := by have := packStr_le i.bytes; unfold Identifier.pack; omega
theorem Edge.pack_pos (e : Edge) : 0 < e.pack.length := by simp [Edge.pack, packArr]
theorem Member.pack_pos (m : Member) : 0 < (Member.pack m).length := by cases m <;> simp [Member.pack, packMap]

/-- Reading back what was written, whatever follows it. -/
theorem takes_image {utf8 : Bytes → Bool} (hv : utf8 [86, 101, 114, 116, 101, 120] = true) (he : utf8 [69, 100, 103, 101] = true)
    {i : Image} {n c : Nat} (h : i.Holds (·.Typed utf8) (Json.Fits utf8 n)) (hc : n + 8 ≤ c) (hl : i.pack.length < 4294967296) :
    Takes (unpackImage utf8 c) i.pack i := by
  unfold Image.pack at hl ⊢
  simp only [List.length_append] at hl
  refine takes_fields (by omega) (by omega) ?_
  refine Takes.bind (a := i.vertices) ?_ (Takes.bind (a := i.edges) ?_ (Takes.bind (a := i.reversedEdges) ?_
    (Takes.bind (a := i.vertexProperties) ?_ (Takes.bind (a := i.edgeProperties) ?_ (Takes.then (a := i.propertyValues) ?_
    (Takes.ret _))))))
  · have := packAll_length (f := fun e : Uuid × Identifier => e.1.pack ++ e.2.pack)
      (fun e => by have := e.1.pack_pos; simp only [List.length_append]; omega) i.vertices
    exact takes_entries (by omega) (by omega) (fun e he => ⟨takes_uuid _, takes_identifier (h.vertices e he)⟩)
  · have := packAll_length (f := Edge.pack) Edge.pack_pos i.edges
    exact takes_seq (by omega) (by omega) (fun e he => takes_edge (h.edges e he) (by omega))
  · have := packAll_length (f := Edge.pack) Edge.pack_pos i.reversedEdges
    exact takes_seq (by omega) (by omega) (fun e he => takes_edge (h.reversedEdges e he) (by omega))
  · have := packAll_length (f := fun e : (Uuid × Identifier) × Json => (packArr 2 ++ (e.1.1.pack ++ e.1.2.pack)) ++ e.2.pack)
      (fun e => by have := e.1.1.pack_pos; simp only [List.length_append]; omega) i.vertexProperties
    refine takes_entries (f := fun k : Uuid × Identifier => packArr 2 ++ (k.1.pack ++ k.2.pack)) (g := Json.pack) (by omega) (by omega) (fun e he => ?_)
    have hm := packAll_mem (f := fun e : (Uuid × Identifier) × Json => (packArr 2 ++ (e.1.1.pack ++ e.1.2.pack)) ++ e.2.pack) he
    simp only [List.length_append] at hm
    obtain ⟨h1, h2, h3⟩ := h.vertexProperties e he
    exact ⟨takes_fields (by omega) (by omega) ((takes_uuid _).bind ((takes_identifier h1).then (Takes.ret _))),
      takes_json h2 (by omega) (by omega)⟩
  · have := packAll_length (f := fun e : (Edge × Identifier) × Json => (packArr 2 ++ (e.1.1.pack ++ e.1.2.pack)) ++ e.2.pack)
      (fun e => by have := e.1.1.pack_pos; simp only [List.length_append]; omega) i.edgeProperties
    refine takes_entries (f := fun k : Edge × Identifier => packArr 2 ++ (k.1.pack ++ k.2.pack)) (g := Json.pack) (by omega) (by omega) (fun e he => ?_)
    have hm := packAll_mem (f := fun e : (Edge × Identifier) × Json => (packArr 2 ++ (e.1.1.pack ++ e.1.2.pack)) ++ e.2.pack) he
    simp only [List.length_append] at hm
    obtain ⟨h0, h1, h2, h3⟩ := h.edgeProperties e he
    exact ⟨takes_fields (by omega) (by omega) ((takes_edge h0 (by omega)).bind ((takes_identifier h1).then (Takes.ret _))),
      takes_json h2 (by omega) (by omega)⟩
  · have := packAll_length (f := fun e : Identifier × List (Json × List Member) => e.1.pack ++ (packMap e.2.length ++
        packAll (fun s => s.1.pack ++ (packArr s.2.length ++ packAll Member.pack s.2)) e.2))
      (fun e => by have := e.1.pack_pos; simp only [List.length_append]; omega) i.propertyValues
    refine takes_entries (f := Identifier.pack) (g := fun l : List (Json × List Member) => packMap l.length ++
        packAll (fun s => s.1.pack ++ (packArr s.2.length ++ packAll Member.pack s.2)) l) (by omega) (by omega) (fun e he' => ?_)
    have hm := packAll_mem (f := fun e : Identifier × List (Json × List Member) => e.1.pack ++ (packMap e.2.length ++
        packAll (fun s => s.1.pack ++ (packArr s.2.length ++ packAll Member.pack s.2)) e.2)) he'
    simp only [List.length_append] at hm
    obtain ⟨h1, h2⟩ := h.propertyValues e he'
    refine ⟨takes_identifier h1, ?_⟩
    have := packAll_length (f := fun s : Json × List Member => s.1.pack ++ (packArr s.2.length ++ packAll Member.pack s.2))
      (fun e => by have := IndraDB.pack_pos e.1; simp only [List.length_append]; omega) e.2
    refine takes_entries (f := Json.pack) (g := fun l : List Member => packArr l.length ++ packAll Member.pack l)
      (by omega) (by omega) (fun s hs => ?_)
    have hm2 := packAll_mem (f := fun s : Json × List Member => s.1.pack ++ (packArr s.2.length ++ packAll Member.pack s.2)) hs
    simp only [List.length_append] at hm2
    have := packAll_length (f := Member.pack) Member.pack_pos s.2
    obtain ⟨⟨h3, h4⟩, h5⟩ := h2 s hs
    exact ⟨takes_json h3 (by omega) (by omega),
      takes_seq (by omega) (by omega) (fun m hm => takes_member hv he (h5 m hm) (by omega))⟩

/-! ### Files that end too early -/

theorem Ext.str {utf8 : Bytes → Bool} : Ext (unpackStr utf8) := by
  refine Ext.item.bind fun i => ?_
  cases i <;> first | exact Ext.fail | exact Ext.ite (Ext.ret _) Ext.fail

theorem Ext.json {utf8 : Bytes → Bool} : ∀ c, Ext (unpackJson utf8 c)
  | 0 => Ext.fail
  | c + 1 => by
    refine Ext.item.bind fun i => ?_
    cases i with
    | nil => exact Ext.ret _
    | bool b => exact Ext.ret _
    | uint n => simp only; split <;> first | exact Ext.ret _ | exact Ext.fail
    | sint n => simp only; split <;> first | exact Ext.ret _ | exact Ext.fail
    | f64 n => simp only; split <;> exact Ext.ret _
    | str s => exact Ext.ite (Ext.ret _) Ext.fail
    | bin s => exact Ext.fail
    | arr n => exact Ext.ite Ext.fail (((Ext.json c).rep n).bind fun _ => Ext.ret _)
    | map n =>
      exact Ext.ite Ext.fail ((Ext.rep (Ext.str.bind fun _ => (Ext.json c).bind fun _ => Ext.ret _) n).bind fun _ => Ext.ret _)

theorem Ext.uuid : Ext unpackUuid := by
  refine Ext.item.bind fun i => ?_
  cases i <;> first | exact Ext.fail | (simp only; split <;> first | exact Ext.ret _ | exact Ext.fail)

theorem Ext.identifier {utf8 : Bytes → Bool} : Ext (unpackIdentifier utf8) := by
  refine Ext.str.bind fun s => ?_
  split
  · exact Ext.ret _
  · exact Ext.fail

theorem Ext.fields {α : Type} {n c : Nat} {p : Nat → Unpack α} (h : ∀ c, Ext (p c)) : Ext (unpackFields n c p) := by
  refine Ext.item.bind fun i => ?_
  cases i <;> first | exact Ext.fail | exact Ext.ite Ext.fail (Ext.ite (h _) Ext.fail)

theorem Ext.seq {α : Type} {c : Nat} {p : Nat → Unpack α} (h : ∀ c, Ext (p c)) : Ext (unpackSeq c p) := by
  refine Ext.item.bind fun i => ?_
  cases i <;> first | exact Ext.fail | exact Ext.ite Ext.fail ((h _).rep _)

theorem Ext.entries {α β : Type} {c : Nat} {p : Nat → Unpack α} {q : Nat → Unpack β} (hp : ∀ c, Ext (p c)) (hq : ∀ c, Ext (q c)) :
    Ext (unpackEntries c p q) := by
  refine Ext.item.bind fun i => ?_
  cases i <;> first | exact Ext.fail |
    exact Ext.ite Ext.fail (Ext.rep ((hp _).bind fun _ => (hq _).bind fun _ => Ext.ret _) _)

theorem Ext.edge {utf8 : Bytes → Bool} (c : Nat) : Ext (unpackEdge utf8 c) :=
  Ext.fields fun _ => Ext.uuid.bind fun _ => Ext.identifier.bind fun _ => Ext.uuid.bind fun _ => Ext.ret _

theorem Ext.member {utf8 : Bytes → Bool} (c : Nat) : Ext (unpackMember utf8 c) := by
  refine Ext.item.bind fun i => ?_
  cases i <;> first | exact Ext.fail |
    exact Ext.ite (Ext.str.bind fun _ => Ext.ite (Ext.uuid.bind fun _ => Ext.ret _)
      (Ext.ite ((Ext.edge c).bind fun _ => Ext.ret _) Ext.fail)) Ext.fail

theorem Ext.image {utf8 : Bytes → Bool} (c : Nat) : Ext (unpackImage utf8 c) :=
  Ext.fields fun _ =>
    (Ext.entries (fun _ => Ext.uuid) (fun _ => Ext.identifier)).bind fun _ =>
    (Ext.seq Ext.edge).bind fun _ => (Ext.seq Ext.edge).bind fun _ =>
    (Ext.entries (fun _ => Ext.fields fun _ => Ext.uuid.bind fun _ => Ext.identifier.bind fun _ => Ext.ret _) Ext.json).bind fun _ =>
    (Ext.entries (fun _ => Ext.fields fun c => (Ext.edge c).bind fun _ => Ext.identifier.bind fun _ => Ext.ret _) Ext.json).bind fun _ =>
    (Ext.entries (fun _ => Ext.identifier) (fun _ => Ext.entries Ext.json (fun _ => Ext.seq Ext.member))).bind fun _ => Ext.ret _

/-- A reader that takes the whole of a file refuses every shorter piece of it. -/
theorem Unpack.Takes.cut {α : Type} {p : Unpack α} (hp : Ext p) {w : Bytes} {a : α} (h : Takes p w a) {b : Bytes} (hb : b <+: w)
    (hne : b ≠ w) : p b = none := by
  obtain ⟨x, rfl⟩ := hb
  cases hpb : p b with
  | none => rfl
  | some ar =>
    have h1 := hp b ar.1 ar.2 x hpb
    have h2 := h []
    rw [List.append_nil, h1] at h2
    simp only [Option.some.injEq, Prod.mk.injEq, List.append_eq_nil_iff] at h2
    exact absurd (by rw [h2.2.2, List.append_nil]) hne

end IndraDB
