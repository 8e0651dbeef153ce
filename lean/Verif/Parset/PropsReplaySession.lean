import Verif.Parset.PropsReplay

/-!
# C158: replays without a time start from the present
-/

namespace Verif.Parset

/-- `replay_from_parset` within a program whose modules were read at `imported`: the default of `from_time` (parset.py:1927). -/
def replayCall (s : Sky) (imported : Int) (fromTime : Option Int) (duration : Option ℚ) (sameLst : Bool) (p : PSet) : Except Err UFile :=
  replay s (fromTime.getD imported) duration sameLst p

/-- **C158** fails: a replay without a time starts on the day on which the modules were read; in a program which ran past midnight, this is always in the past. -/
theorem replay_default_violated (imported clock t : Int) (h : imported / 86400 < clock / 86400) : newStart imported t < clock := by
  unfold newStart daySec; omega

/-- **C158** fails: its result is the same whenever the call is made, and that of the day on which the modules were read: any time of this day gives it. -/
theorem replay_stale_violated (s : Sky) (imported f : Int) (duration : Option ℚ) (sameLst : Bool) (p : PSet) (h : imported / 86400 = f / 86400) :
    replayCall s imported none duration sameLst p = replay s f duration sameLst p := by
  have e : ∀ t, newStart imported t = newStart f t := by intro t; unfold newStart daySec; rw [h]
  show replay s imported duration sameLst p = _
  have hs : replayShift s imported sameLst p = replayShift s f sameLst p := by
    unfold replayShift
    cases startOf s p with
    | error _ => rfl
    | ok t =>
      show (if sameLst then _ else if newStart imported t - t < 0 then _ else _) = (if sameLst then _ else if newStart f t - t < 0 then _ else _)
      rw [e t]
  unfold replay
  rw [hs]

/-- With a time the reading of the modules does not matter. -/
theorem replay_given_partial (s : Sky) (imported f : Int) (duration : Option ℚ) (sameLst : Bool) (p : PSet) :
    replayCall s imported (some f) duration sameLst p = replay s f duration sameLst p := rfl

example : newStart (20 * 86400 + 80000) (3 * 86400 + 85000) < 21 * 86400 + 10 := replay_default_violated _ _ _ (by norm_num)

end Verif.Parset
