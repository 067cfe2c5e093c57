import Verif.Model.Client
/-
An implementation of the assumed library interface, to show that its laws can be met: a
"bloom filter" that stores its elements.
-/
namespace AdBlock

/-- one element of the buffer of the filter -/
def toyEnc (w : Bytes) : Bytes := w.flatMap (fun b => [1, b]) ++ [0]

def toyBuffer (l : List Bytes) : Bytes := l.flatMap toyEnc ++ [2]

def toyDecode : Bytes → Bytes → List Bytes
  | [], _ => []
  | [_], cur => [cur].take 0
  | x :: y :: r, cur => if x = 1 then toyDecode r (cur ++ [y]) else if x = 0 then cur :: toyDecode (y :: r) [] else []

theorem toyDecode_enc (w rest cur : Bytes) (hr : rest ≠ []) :
    toyDecode (toyEnc w ++ rest) cur = (cur ++ w) :: toyDecode rest [] := by
  induction w generalizing cur with
  | nil =>
    cases rest with
    | nil => exact absurd rfl hr
    | cons y r => simp [toyEnc, toyDecode]
  | cons b w ih =>
    have : toyEnc (b :: w) ++ rest = 1 :: b :: (toyEnc w ++ rest) := by simp [toyEnc]
    rw [this, toyDecode, if_pos rfl, ih]
    simp

theorem toyDecode_buffer (l : List Bytes) : toyDecode (toyBuffer l) [] = l := by
  induction l with
  | nil => rfl
  | cons w l ih =>
    have : toyBuffer (w :: l) = toyEnc w ++ toyBuffer l := by simp [toyBuffer]
    rw [this, toyDecode_enc _ _ _ (by simp [toyBuffer]), ih]
    rfl

def toyBloom : BloomLib where
  B := List Bytes
  new _ _ := []
  ofBuffer b := toyDecode b []
  buffer := toyBuffer
  add l w := w :: l
  mem l w := l.contains w
  substr l s n := l.any fun w => w.length == n && decide (w <:+: s)
  rolls _ := True
  mem_add_self := by simp
  mem_add := by intro b s t h; simp at h ⊢; exact .inr h
  substr_of_mem := by
    intro b s w _ h1 h2
    simp at h2 ⊢
    exact ⟨w, h2, rfl, h1⟩
  ofBuffer_buffer := toyDecode_buffer
  buffer_ne_nil := by intro b; simp [toyBuffer]

/-- an environment meeting all assumptions -/
def toyEnv : Env where
  fp := toyBloom
  pair := toyBloom
  hash s := s.foldl (fun h c => 19 * h + c.toNat) 0
  bad := [bs%"google", bs%"/ads/b"]

/-- a bloom filter of eight bits with one hash function -/
def byteBloom : BloomLib where
  B := BitVec 8
  new _ _ := 0
  ofBuffer l := (l.headD 0).toBitVec
  buffer b := [⟨b⟩]
  add b w := b ||| BitVec.twoPow 8 ((w.foldl (fun h c => 3 * h + c.toNat) 0) % 8)
  mem b w := b.getLsbD ((w.foldl (fun h c => 3 * h + c.toNat) 0) % 8)
  substr b s n := (List.range (s.length + 1)).any fun i =>
    decide (((s.drop i).take n).length = n) && b.getLsbD ((((s.drop i).take n).foldl (fun h c => 3 * h + c.toNat) 0) % 8)
  rolls _ := True
  mem_add_self := by
    intro b w
    have : (w.foldl (fun h (c : Byte) => 3 * h + c.toNat) 0) % 8 < 8 := Nat.mod_lt _ (by decide)
    simp [BitVec.getLsbD_twoPow]
    exact .inr this
  mem_add := by intro b s t h; simp at h ⊢; exact .inl h
  substr_of_mem := by
    rintro b s w _ ⟨x, y, rfl⟩ h
    refine List.any_eq_true.2 ⟨x.length, by simp; omega, ?_⟩
    have : ((x ++ w ++ y).drop x.length).take w.length = w := by simp
    rw [this]
    simpa using h
  ofBuffer_buffer := by intro b; rfl
  buffer_ne_nil := by intro b; simp

/-- an environment with bloom filters of fixed size -/
def byteEnv : Env := { toyEnv with fp := byteBloom, pair := byteBloom }

end AdBlock
