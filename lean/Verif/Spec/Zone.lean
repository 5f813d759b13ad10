import Verif.Model.Zone
/-! # What a clock shows in a time zone -/

namespace Verif.Spec

/-- The offset in force: that of the last change that has happened. -/
def inForce (z : Zone) (t : Int) : Int := z.changes.foldl (fun o c => if c.1 ≤ t then c.2 else o) z.first

/-- What a clock in the zone shows at an instant, as the number of seconds since it showed the beginning of 1970. -/
def shown (z : Zone) (t : Int) : Int := t + inForce z t

/-- The reading at the beginning of the day that the clock shows. -/
def dayStart (z : Zone) (t : Int) : Int := shown z t - shown z t % 86400

/-- A zone as they are in use: offsets below 24 hours, and at least two days between one change and the next. -/
def Ordinary (z : Zone) : Prop :=
  (∀ o, o = z.first ∨ (∃ c ∈ z.changes, o = c.2) → -86400 < o ∧ o < 86400) ∧
    z.changes.Pairwise (fun c c' => c.1 + 172800 ≤ c'.1)

/-- No other instant shows the same time. -/
def Unambiguous (z : Zone) (t : Int) : Prop := ∀ t', shown z t' = shown z t → t' = t

/-- The clock is set back at some instant: it showed more a second before than it does then. -/
def SetBack (z : Zone) (w : Int) : Prop := shown z w ≤ shown z (w - 1)

/-- The clock is set forward at some instant: it jumps over at least one second. -/
def SetForward (z : Zone) (w : Int) : Prop := shown z (w - 1) + 1 < shown z w

/-- New York: summer time from March 14, 2021 to November 7, and again from March 13, 2022. -/
def newYork : Zone := ⟨-18000, [(1615705200, -14400), (1636264800, -18000), (1647154800, -14400)]⟩

/-- São Paulo: summer time from November 4, 2018, when the clocks went from midnight to one o'clock, to February 2019. -/
def saoPaulo : Zone := ⟨-10800, [(1541300400, -7200), (1550368800, -10800)]⟩

/-- London: summer time from March 28, 2021 to October 31. -/
def london : Zone := ⟨0, [(1616893200, 3600), (1635642000, 0)]⟩

end Verif.Spec
