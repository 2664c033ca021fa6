import Verif.Lemmas.ReadBackLines
import Verif.Lemmas.WriterColors
/-! Helper lemmas: trees of what is seen, their lines, and back. -/
namespace Verif
open Spec
namespace ReadBack

/-- The drawing on the left up to the last sign. -/
def stem (n : Nat) : List Char := ' ' :: ' ' :: (List.replicate (n - 1) [' ', ' ', '│', ' ']).flatten
def mBranch (n : Nat) : List Char := stem n ++ (if n = 0 then [] else [' ', ' ', '├', '─', ' '])
def mEdge (n : Nat) : List Char := stem n ++ [' ', ' ', '└', '─', ' ']
def mPipes (n : Nat) : List Char := stem n ++ [' ', ' ', '│', ' ']

def sp7 : List Char := List.replicate 7 ' '
def topicRest : List Char := [':', ' ', '0', 'x']
def zeroRest : List Char := "mit topic 0: 0x".toList
def dataRest : List Char := "  data: 0x".toList
def nameRest : List Char := "opic ".toList

def topicZero (t : U256) : List Char := ' ' :: 'e' :: (zeroRest ++ wordDigits t)
def topicChars (i : Nat) (t : U256) : List Char :=
  sp7 ++ ('t' :: (nameRest ++ (Nat.toDigits 10 i ++ (topicRest ++ wordDigits t))))
def dataChars (d : Bytes) : List Char := sp7 ++ (' ' :: (dataRest ++ hexEncode d))

def topicsFrom (n : Nat) : Nat → List U256 → List (List Char)
  | _, [] => []
  | i, t :: ts => (mPipes n ++ topicChars i t) :: topicsFrom n (i + 1) ts

def logChars (n : Nat) (ts : List U256) (d : Bytes) : List (List Char) :=
  match ts with
  | [] => [mBranch n ++ dataChars d]
  | t :: ts => (mBranch n ++ topicZero t) :: (topicsFrom n 1 ts ++ [mPipes n ++ dataChars d])

mutual
/-- The lines of what is seen of a frame. -/
def treeChars (f : Address → List Char) (n : Nat) : SeenTree → List (List Char)
  | .mk s items => (mBranch n ++ headChars f s) ::
      (itemChars f (n + 1) items ++ [mEdge (n + 1) ++ footChars s])
def itemChars (f : Address → List Char) (n : Nat) : SeenItems → List (List Char)
  | .nil => []
  | .log ts d rest => logChars n ts d ++ itemChars f n rest
  | .sub t rest => treeChars f n t ++ itemChars f n rest
end

mutual
def SaneTree : SeenTree → Prop
  | .mk s items => Sane s ∧ SaneItems items
def SaneItems : SeenItems → Prop
  | .nil => True
  | .log _ _ rest => SaneItems rest
  | .sub t rest => SaneTree t ∧ SaneItems rest
end

/-! ### Back -/

theorem topics_inj (n : Nat) : ∀ (ts ts' : List U256) (i : Nat) (d d' : Bytes) (r r' : List (List Char)),
    topicsFrom n i ts ++ (mPipes n ++ dataChars d) :: r = topicsFrom n i ts' ++ (mPipes n ++ dataChars d') :: r' →
    ts = ts' ∧ d = d' ∧ r = r'
  | [], [], i, d, d', r, r', h => by
    simp only [topicsFrom, List.nil_append, List.cons.injEq, List.append_cancel_left_eq, dataChars, true_and] at h
    exact ⟨rfl, hexEncode_inj h.1, h.2⟩
  | [], t :: ts, i, d, d', r, r', h => by
    simp only [topicsFrom, List.nil_append, List.cons_append, List.cons.injEq, List.append_cancel_left_eq, dataChars,
      topicChars] at h
    exact absurd h.1.1 (by decide)
  | t :: ts, [], i, d, d', r, r', h => by
    simp only [topicsFrom, List.nil_append, List.cons_append, List.cons.injEq, List.append_cancel_left_eq, dataChars,
      topicChars] at h
    exact absurd h.1.1 (by decide)
  | t :: ts, t' :: ts', i, d, d', r, r', h => by
    simp only [topicsFrom, List.cons_append, List.cons.injEq, List.append_cancel_left_eq, topicChars, true_and] at h
    obtain ⟨e1, e2, e3⟩ := topics_inj n ts ts' (i + 1) d d' r r' h.2
    exact ⟨by rw [wordDigits_inj h.1, e1], e2, e3⟩

theorem log_inj {n : Nat} {ts ts' : List U256} {d d' : Bytes} {r r' : List (List Char)}
    (h : logChars n ts d ++ r = logChars n ts' d' ++ r') : ts = ts' ∧ d = d' ∧ r = r' := by
  have hsp : sp7 = ' ' :: ' ' :: List.replicate 5 ' ' := rfl
  cases ts with
  | nil =>
    cases ts' with
    | nil =>
      simp only [logChars, List.cons_append, List.nil_append, List.cons.injEq, List.append_cancel_left_eq, dataChars,
        true_and] at h
      exact ⟨rfl, hexEncode_inj h.1, h.2⟩
    | cons t ts' =>
      simp only [logChars, List.cons_append, List.nil_append, List.cons.injEq, List.append_cancel_left_eq, dataChars,
        topicZero, hsp] at h
      exact absurd h.1.2.1 (by decide)
  | cons t ts =>
    cases ts' with
    | nil =>
      simp only [logChars, List.cons_append, List.nil_append, List.cons.injEq, List.append_cancel_left_eq, dataChars,
        topicZero, hsp] at h
      exact absurd h.1.2.1 (by decide)
    | cons t' ts' =>
      simp only [logChars, List.cons_append, List.append_assoc, List.nil_append, List.cons.injEq,
        List.append_cancel_left_eq, topicZero, true_and] at h
      obtain ⟨e1, e2, e3⟩ := topics_inj n ts ts' 1 d d' r r' h.2
      exact ⟨by rw [wordDigits_inj h.1, e1], e2, e3⟩

theorem edge_branch {n : Nat} {a b : List Char} (h : mEdge (n + 1) ++ a = mBranch (n + 1) ++ b) : False := by
  simp only [mEdge, mBranch, Nat.succ_ne_zero, if_false, List.append_assoc, List.append_cancel_left_eq,
    List.cons_append, List.cons.injEq, true_and] at h
  exact absurd h.1 (by decide)

theorem log_first (n : Nat) (ts : List U256) (d : Bytes) : ∃ a r, logChars n ts d = (mBranch n ++ ' ' :: a) :: r := by
  cases ts with
  | nil => exact ⟨_, _, rfl⟩
  | cons t ts => exact ⟨_, _, rfl⟩

theorem tree_first (f : Address → List Char) (n : Nat) (t : SeenTree) :
    ∃ a r, treeChars f n t = (mBranch n ++ '[' :: a) :: r := by
  obtain ⟨s, it⟩ := t
  exact ⟨_, _, by rw [treeChars, headChars]⟩

mutual
/-- The lines of a frame can be read in one way only. -/
theorem tree_inj {f : Address → List Char} (hf : AddrText f) : ∀ (t t' : SeenTree) (n : Nat) (r r' : List (List Char)),
    SaneTree t → SaneTree t' → treeChars f n t ++ r = treeChars f n t' ++ r' → t = t' ∧ r = r'
  | .mk s it, .mk s' it', n, r, r', hs, hs', h => by
    simp only [treeChars, List.cons_append, List.append_assoc, List.nil_append, List.cons.injEq,
      List.append_cancel_left_eq] at h
    simp only [SaneTree] at hs hs'
    obtain ⟨e1, e2, e3⟩ := items_inj hf it it' n _ _ _ _ hs.2 hs'.2 h.2
    exact ⟨by rw [frame_inj hf hs.1 hs'.1 h.1 e2, e1], e3⟩
theorem items_inj {f : Address → List Char} (hf : AddrText f) : ∀ (it it' : SeenItems) (n : Nat) (a a' : List Char)
    (r r' : List (List Char)), SaneItems it → SaneItems it' →
    itemChars f (n + 1) it ++ (mEdge (n + 1) ++ a) :: r = itemChars f (n + 1) it' ++ (mEdge (n + 1) ++ a') :: r' →
    it = it' ∧ a = a' ∧ r = r'
  | .nil, .nil, n, a, a', r, r', _, _, h => by
    simp only [itemChars, List.nil_append, List.cons.injEq, List.append_cancel_left_eq] at h
    exact ⟨rfl, h.1, h.2⟩
  | .nil, .log ts d rest, n, a, a', r, r', _, _, h => by
    obtain ⟨b, q, hb⟩ := log_first (n + 1) ts d
    simp only [itemChars, List.nil_append, hb, List.cons_append, List.cons.injEq] at h
    exact (edge_branch h.1).elim
  | .nil, .sub t rest, n, a, a', r, r', _, _, h => by
    obtain ⟨b, q, hb⟩ := tree_first f (n + 1) t
    simp only [itemChars, List.nil_append, hb, List.cons_append, List.cons.injEq] at h
    exact (edge_branch h.1).elim
  | .log ts d rest, .nil, n, a, a', r, r', _, _, h => by
    obtain ⟨b, q, hb⟩ := log_first (n + 1) ts d
    simp only [itemChars, List.nil_append, hb, List.cons_append, List.cons.injEq] at h
    exact (edge_branch h.1.symm).elim
  | .sub t rest, .nil, n, a, a', r, r', _, _, h => by
    obtain ⟨b, q, hb⟩ := tree_first f (n + 1) t
    simp only [itemChars, List.nil_append, hb, List.cons_append, List.cons.injEq] at h
    exact (edge_branch h.1.symm).elim
  | .log ts d rest, .sub t rest', n, a, a', r, r', _, _, h => by
    obtain ⟨b, q, hb⟩ := log_first (n + 1) ts d
    obtain ⟨b', q', hb'⟩ := tree_first f (n + 1) t
    simp only [itemChars, hb, hb', List.cons_append, List.cons.injEq, List.append_cancel_left_eq] at h
    exact absurd h.1.1 (by decide)
  | .sub t rest, .log ts d rest', n, a, a', r, r', _, _, h => by
    obtain ⟨b, q, hb⟩ := log_first (n + 1) ts d
    obtain ⟨b', q', hb'⟩ := tree_first f (n + 1) t
    simp only [itemChars, hb, hb', List.cons_append, List.cons.injEq, List.append_cancel_left_eq] at h
    exact absurd h.1.1 (by decide)
  | .log ts d rest, .log ts' d' rest', n, a, a', r, r', hs, hs', h => by
    simp only [itemChars, List.append_assoc] at h
    simp only [SaneItems] at hs hs'
    obtain ⟨e1, e2, e3⟩ := log_inj h
    obtain ⟨e4, e5, e6⟩ := items_inj hf rest rest' n a a' r r' hs hs' e3
    exact ⟨by rw [e1, e2, e4], e5, e6⟩
  | .sub t rest, .sub t' rest', n, a, a', r, r', hs, hs', h => by
    simp only [itemChars, List.append_assoc] at h
    simp only [SaneItems] at hs hs'
    obtain ⟨e1, e3⟩ := tree_inj hf t t' (n + 1) _ _ hs.1 hs'.1 h
    obtain ⟨e4, e5, e6⟩ := items_inj hf rest rest' n a a' r r' hs.2 hs'.2 e3
    exact ⟨by rw [e1, e4], e5, e6⟩
end

end ReadBack
end Verif
