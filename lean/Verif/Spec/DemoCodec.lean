import Verif.Model.Blob
/-!
# A byte format with the assumed laws

Numbers are written in unary (as many ones, then a zero), a token as its kind and its numbers.  It is used only to evaluate the
functions on concrete blobs and to show that the laws of `Codec.Lawful` can be satisfied.
-/

namespace Verif.DemoCodec

/-- a number -/
def putNat (n : Nat) : List UInt8 := List.replicate n 1 ++ [0]

/-- a number and the rest -/
def getNat : List UInt8 → Option (Nat × List UInt8)
  | [] => none
  | b :: l => if b = 0 then some (0, l) else if b = 1 then (getNat l).map (fun p => (p.1 + 1, p.2)) else none

/-- `n` numbers -/
def getNats : Nat → List UInt8 → Option (List Nat × List UInt8)
  | 0, l => some ([], l)
  | n + 1, l => (getNat l).bind fun p => (getNats n p.2).map fun q => (p.1 :: q.1, q.2)

/-- numbers of a token: its kind and its content.  The names of the demos are short. -/
def nats : Tok Nat Int → List Nat
  | .size n => [0, n]
  | .str s => 1 :: s.toList.map Char.toNat
  | .time (.ofNat n) => [2, n]
  | .time (.negSucc n) => [3, n]
  | .uuid n => [4, n]
  | .data n => [5, n]
  | .newPtr t => [6, t]
  | .oldPtr k => [7, k]
  | .edge (.ofNat n) => [8, n]
  | .edge (.negSucc n) => [9, n]

/-- the token of a list of numbers -/
def tok : List Nat → Option (Tok Nat Int)
  | [0, n] => some (.size n)
  | 1 :: l => some (.str (String.ofList (l.map Char.ofNat)))
  | [2, n] => some (.time (.ofNat n))
  | [3, n] => some (.time (.negSucc n))
  | [4, n] => some (.uuid n)
  | [5, n] => some (.data n)
  | [6, t] => some (.newPtr t)
  | [7, k] => some (.oldPtr k)
  | [8, n] => some (.edge (.ofNat n))
  | [9, n] => some (.edge (.negSucc n))
  | _ => none

/-- the format: how many numbers, then the numbers; the header is two bytes -/
def codec : Codec Nat Int where
  header := [22, 10]
  enc t := putNat (nats t).length ++ (nats t).flatMap putNat
  dec l := (getNat l).bind fun p => (getNats p.1 p.2).bind fun q => (tok q.1).map fun t => (t, q.2)

private theorem getNat_put (n : Nat) (r : List UInt8) : getNat (putNat n ++ r) = some (n, r) := by
  induction n with
  | zero => simp [putNat, getNat]
  | succ n ih =>
    have e : putNat (n + 1) ++ r = 1 :: (putNat n ++ r) := by simp [putNat, List.replicate_succ]
    rw [e, getNat, if_neg (by decide), if_pos rfl, ih]
    rfl

private theorem getNats_put (l : List Nat) (r : List UInt8) : getNats l.length (l.flatMap putNat ++ r) = some (l, r) := by
  induction l with
  | nil => rfl
  | cons n l ih => simp [getNats, getNat_put, ih, List.append_assoc]

private theorem tok_nats (t : Tok Nat Int) : tok (nats t) = some t := by
  cases t with
  | str s => simp [tok, nats, List.map_map, Function.comp_def, Char.ofNat_toNat]
  | time x => cases x <;> rfl
  | edge x => cases x <;> rfl
  | _ => rfl

private theorem getNat_sound : ∀ (l : List UInt8) (n : Nat) (r : List UInt8), getNat l = some (n, r) → l = putNat n ++ r := by
  intro l
  induction l with
  | nil => intro n r h; simp [getNat] at h
  | cons b l ih =>
    intro n r h
    rw [getNat] at h
    by_cases h0 : b = 0
    · rw [if_pos h0] at h
      obtain ⟨rfl, rfl⟩ := Prod.mk.inj (Option.some.inj h)
      simp [putNat, h0]
    · rw [if_neg h0] at h
      by_cases h1 : b = 1
      · rw [if_pos h1] at h
        obtain ⟨p, hp, he⟩ := Option.map_eq_some_iff.1 h
        obtain ⟨rfl, rfl⟩ := Prod.mk.inj he
        rw [ih p.1 p.2 hp]
        simp [putNat, List.replicate_succ, h1]
      · rw [if_neg h1] at h; simp at h

private theorem getNats_sound : ∀ (k : Nat) (l : List UInt8) (ns : List Nat) (r : List UInt8), getNats k l = some (ns, r) →
    ns.length = k ∧ l = ns.flatMap putNat ++ r := by
  intro k
  induction k with
  | zero =>
    intro l ns r h
    obtain ⟨rfl, rfl⟩ := Prod.mk.inj (Option.some.inj h)
    simp
  | succ k ih =>
    intro l ns r h
    obtain ⟨p, hp, h⟩ := Option.bind_eq_some_iff.1 h
    obtain ⟨q, hq, he⟩ := Option.map_eq_some_iff.1 h
    obtain ⟨rfl, rfl⟩ := Prod.mk.inj he
    obtain ⟨h1, h2⟩ := ih _ _ _ hq
    refine ⟨by simp [h1], ?_⟩
    rw [getNat_sound l p.1 p.2 hp, h2]
    simp [List.append_assoc]

/-- the laws hold -/
theorem lawful : codec.Lawful := by
  refine ⟨fun t => ?_, fun t r => ?_, fun t p q h hq => ?_⟩
  · simp [codec, putNat]
  · show Option.bind _ _ = _
    rw [codec, List.append_assoc, getNat_put]
    show (getNats _ _).bind _ = _
    rw [getNats_put]
    show (tok _).map _ = _
    rw [tok_nats]
    rfl
  · rw [Option.eq_none_iff_forall_ne_some]
    intro x hx
    obtain ⟨k, hk, h1⟩ := Option.bind_eq_some_iff.1 hx
    obtain ⟨ns, hns, -⟩ := Option.bind_eq_some_iff.1 h1
    have e1 := getNat_sound p k.1 k.2 hk
    obtain ⟨e2, e3⟩ := getNats_sound _ _ _ _ hns
    have e : putNat (nats t).length ++ (nats t).flatMap putNat = putNat k.1 ++ (k.2 ++ q) := by
      rw [← List.append_assoc, ← e1]; exact h
    have f := congrArg getNat e
    rw [getNat_put, getNat_put] at f
    obtain ⟨f1, f2⟩ := Prod.mk.inj (Option.some.inj f)
    have g : (nats t).flatMap putNat ++ [] = ns.1.flatMap putNat ++ (ns.2 ++ q) := by
      rw [List.append_nil, ← List.append_assoc, ← e3]; exact f2
    have g' := congrArg (getNats (nats t).length) g
    rw [getNats_put, f1, ← e2, getNats_put] at g'
    have := (Prod.mk.inj (Option.some.inj g')).2
    exact hq (List.append_eq_nil_iff.1 this.symm).2

end Verif.DemoCodec
