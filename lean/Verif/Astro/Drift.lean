import Verif.Astro.Pointing

/-!
# Pointings fixed on the ground or on a target, and what a look-up keeps of them (nenupy/astro/pointing.py)

`E`: equatorial directions, `H`: horizontal ones. The conversions at a site and a time are parameters. Site 0 is NenuFAR.
-/

namespace Verif.Astro

/-- A pointing with its site and its horizontal coordinates set by hand, if any. Used for pointing.py:102-111, 867; astro_tools.py:1210-1216. -/
structure SitePointing (E H : Type) where
  base : Pointing E
  custom : Option (List H)
  site : Nat

/-- Times given as a scalar or as an array. Used for pointing.py:259-263. -/
inductive TimeArg
  | one (t : ℚ)
  | many (ts : List ℚ)

/-- `time.setter` (pointing.py:259-263). -/
def TimeArg.list : TimeArg → List ℚ
  | .one t => [t]
  | .many ts => ts

/-- Coordinates of the same shape as the times. Used for pointing.py:659, 859-862; target.py:1227-1234, 1344-1350. -/
def shaped {E : Type} (pos : ℚ → E) : TimeArg → Dirs E
  | .one t => .one (pos t)
  | .many ts => .many (ts.map pos)

/-- `target_tracking` (pointing.py:658-663); `pos`: direction of the target at each time. -/
def targetTracking {E H : Type} (pos : ℚ → E) (time : TimeArg) (dur : Option (List ℚ)) (site : Nat) : Except Err (SitePointing E H) :=
  (mkPointing (shaped pos time) time.list dur).map fun p => ⟨p, none, site⟩

/-- `azel_driftscan` (pointing.py:846-868). -/
def azelDrift {E H : Type} (toSky : Nat → ℚ → H → E) (h : H) (time : TimeArg) (dur : Option (List ℚ)) (site : Nat) :
    Except Err (SitePointing E H) :=
  (mkPointing (shaped (fun t => toSky site t h) time) time.list dur).map fun p => ⟨p, some (List.replicate time.list.length h), site⟩

/-- `zenith_tracking` (pointing.py:913-919); `zen`: azimuth 0, elevation 90. -/
def zenithTracking {E H : Type} (toSky : Nat → ℚ → H → E) (zen : H) (time : TimeArg) (dur : Option (List ℚ)) (site : Nat) :
    Except Err (SitePointing E H) := azelDrift toSky zen time dur site

/-- Horizontal coordinates set by hand at rank `i` of a look-up in `n` times (pointing.py:170-180): one of them is used at all times. -/
def customAt {H : Type} (c : List H) (n i : Nat) : Except Err H :=
  if c.length = 1 then (c[0]?).elim (.error .indexError) .ok
  else if c.length = n then (c[i]?).elim (.error .indexError) .ok
  else .error .indexError

/-- The part of a look-up for a time inside of an interval of rank `i` (pointing.py:166-180). -/
def lookIn {E H : Type} (p : SitePointing E H) (i : Nat) : Except Err (E × Option H) :=
  if p.base.dirList.length ≠ p.base.time.length then .error .indexError
  else (p.base.dirList[i]?).elim (.error .indexError) fun e =>
    p.custom.elim (.ok (e, none)) fun c => (customAt c p.base.time.length i).map fun h => (e, some h)

/-- `__getitem__` at one time (pointing.py:118-202): directions on the sky, and horizontal ones if the pointing had some. The zenith at
other times (147-164). -/
def SitePointing.look {E H : Type} (toSky : Nat → ℚ → H → E) (zen : H) (p : SitePointing E H) (t : ℚ) : Except Err (E × Option H) :=
  ((p.base.hits t).getLast?).elim (.ok (toSky p.site t zen, p.custom.map fun _ => zen)) (lookIn p)

/-- Horizontal coordinates of the result of a look-up (pointing.py:182-202, 297-316; astro_tools.py:1198-1207): its site is not given to
the new pointing, which is that of NenuFAR. -/
def SitePointing.seen {E H : Type} (toSky : Nat → ℚ → H → E) (toGround : Nat → ℚ → E → H) (zen : H) (p : SitePointing E H) (t : ℚ) :
    Except Err H := (p.look toSky zen t).map fun r => r.2.getD (toGround 0 t r.1)

end Verif.Astro
