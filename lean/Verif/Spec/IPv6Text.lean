/-
A grammar of the IPv6 addresses that are accepted, with their values, for property C96.
-/
import Verif.Spec.Host

namespace Urlstd.Spec

/-- A group between colons: up to four hexadecimal digits, which are a piece, or a dotted IPv4 address, which is two. -/
inductive V6Item : Str → List Nat → Prop
  | hex (p : Str) (v : Nat) (h1 : p ≠ []) (h4 : p.length ≤ 4) (hv : radixValue 16 0 p = some v) : V6Item p [v]
  | quad (n : Nat) (hn : n < 2 ^ 32) : V6Item (dotted n) [n / 2 ^ 16, n % 2 ^ 16]

/-- One or more groups with single colons between them, and their pieces. -/
inductive V6Groups : Str → List Nat → Prop
  | one {p : Str} {ws : List Nat} (h : V6Item p ws) : V6Groups p ws
  | cons {p t : Str} {ws vs : List Nat} (h : V6Item p ws) (ht : V6Groups t vs) : V6Groups (p ++ u!":" ++ t) (ws ++ vs)

/-- nothing, or one or more groups -/
def V6Side (t : Str) (ws : List Nat) : Prop := (t = [] ∧ ws = []) ∨ V6Groups t ws

/-- The texts of IPv6 addresses, and the addresses. -/
inductive V6Text : Str → List Nat → Prop
  /-- groups of eight pieces -/
  | full {t : Str} {ws : List Nat} (h : V6Groups t ws) (h8 : ws.length = 8) : V6Text t ws
  /-- Groups of at most seven pieces with "::" somewhere, which stands for the others, one or more of them. Seven pieces are not
  allowed in front of a "::" at the end. -/
  | compressed {l r : Str} {lw rw : List Nat} (hl : V6Side l lw) (hr : V6Side r rw) (h7 : lw.length + rw.length ≤ 7)
      (h6 : r = [] → lw.length ≤ 6) :
      V6Text (l ++ u!"::" ++ r) (lw ++ List.replicate (8 - lw.length - rw.length) 0 ++ rw)
  /-- ":::" and groups of at most six pieces -/
  | triple {r : Str} {rw : List Nat} (hr : V6Groups r rw) (h6 : rw.length ≤ 6) :
      V6Text (u!":::" ++ r) (List.replicate (8 - rw.length) 0 ++ rw)

end Urlstd.Spec
