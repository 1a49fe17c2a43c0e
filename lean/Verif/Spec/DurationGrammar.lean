/-!
# RFC 5545 section 3.3.6: the grammar of durations

```
dur-value  = (["+"] / "-") "P" (dur-date / dur-time / dur-week)
dur-date   = dur-day [dur-time]
dur-time   = "T" (dur-hour / dur-minute / dur-second)
dur-week   = 1*DIGIT "W"
dur-hour   = 1*DIGIT "H" [dur-minute]
dur-minute = 1*DIGIT "M" [dur-second]
dur-second = 1*DIGIT "S"
dur-day    = 1*DIGIT "D"
```
together with the number of seconds each phrase denotes.
-/

namespace Spec.Dur

/-- `1*DIGIT` denoting `n`. -/
inductive Digits : List Char → Nat → Prop
  | one (k : Nat) (h : k < 10) : Digits [Char.ofNat (48 + k)] k
  | snoc (k n : Nat) (h : k < 10) (s : List Char) : Digits s n →
      Digits (s ++ [Char.ofNat (48 + k)]) (10 * n + k)

/-- `dur-second`. -/
inductive Second : List Char → Nat → Prop
  | mk {s n} : Digits s n → Second (s ++ ['S']) n

/-- `dur-minute`. -/
inductive Minute : List Char → Nat → Prop
  | bare {s n} : Digits s n → Minute (s ++ ['M']) (60 * n)
  | more {s n r k} : Digits s n → Second r k → Minute (s ++ ['M'] ++ r) (60 * n + k)

/-- `dur-hour`. -/
inductive Hour : List Char → Nat → Prop
  | bare {s n} : Digits s n → Hour (s ++ ['H']) (3600 * n)
  | more {s n r k} : Digits s n → Minute r k → Hour (s ++ ['H'] ++ r) (3600 * n + k)

/-- `dur-time`. -/
inductive Time : List Char → Nat → Prop
  | hour {s k} : Hour s k → Time ('T' :: s) k
  | minute {s k} : Minute s k → Time ('T' :: s) k
  | second {s k} : Second s k → Time ('T' :: s) k

/-- `dur-date / dur-time / dur-week`. -/
inductive Body : List Char → Nat → Prop
  | week {s n} : Digits s n → Body (s ++ ['W']) (604800 * n)
  | day {s n} : Digits s n → Body (s ++ ['D']) (86400 * n)
  | dayTime {s n r k} : Digits s n → Time r k → Body (s ++ ['D'] ++ r) (86400 * n + k)
  | time {r k} : Time r k → Body r k

/-- `dur-value` denoting a number of seconds. -/
inductive Value : List Char → Int → Prop
  | plain {s k} : Body s k → Value ('P' :: s) k
  | plus {s k} : Body s k → Value ('+' :: 'P' :: s) k
  | minus {s} {k : Nat} : Body s k → Value ('-' :: 'P' :: s) (-k)

end Spec.Dur
