import Verif.Parset.Load

/-!
# Model of `ParsetUser.replay_from_parset`: `nenupy/observation/parset.py`

Times are whole seconds (those of parset files are); days have 86400 seconds.
-/

namespace Verif.Parset

/-- What is asked of the sky. Used for parset.py:1968-1996. -/
inductive Aim
  | fixed (ra dec : Str)
  | body (name : Str)
  deriving DecidableEq, Repr

/-- What is not followed: the time of a text and the text of a time, the directions, the bodies known to astropy and the next transit of a target. Used for parset.py:1927-2033. -/
structure Sky where
  inst : Str → Int
  iso : Int → Str
  degrees : PVal → PVal → Except Err (Str × Str)
  texts : PVal → PVal → Except Err (Str × Str)
  bodies : List Str
  next : Aim → Int → Int

/-- Seconds of a day. Used for parset.py:1941. -/
def daySec : Int := 86400

/-- `Time(f"{date}T{time of day}")` (parset.py:1941). -/
def newStart (fromTime start : Int) : Int := fromTime / daySec * daySec + start % daySec

/-- `parset.anabeams[0]["startTime"]` (parset.py:1937); anything but a time has no `iso`. -/
def startOf (s : Sky) (p : PSet) : Except Err Int :=
  (dictGet p.anas 0).elim (.error .keyError) fun a => (dictGet a "startTime".toList).elim (.error .keyError) fun v =>
    v.casesOn (fun _ => .error .attributeError) (fun _ => .error .attributeError) (fun _ => .error .attributeError) (fun _ => .error .attributeError) (fun t => .ok (s.inst t))
      (fun _ => .error .attributeError)

/-- The difference of the starts (parset.py:1937-1944). With `same_lst` a text is subtracted from. -/
def replayShift (s : Sky) (fromTime : Int) (sameLst : Bool) (p : PSet) : Except Err Int :=
  (startOf s p).bind fun t => if sameLst then .error .typeError else if newStart fromTime t - t < 0 then .error .valueError else .ok (newStart fromTime t - t)

/-- `+= delta_time` (parset.py:1951). Numbers, which astropy would take as days, are left out. -/
def shiftTime (s : Sky) (δ : Int) (v : PVal) : Except Err UVal :=
  v.casesOn (fun _ => .error .typeError) (fun _ => .error .typeError) (fun _ => .error .typeError) (fun _ => .error .typeError) (fun t => .ok (.time (s.iso (s.inst t + δ))))
    (fun _ => .error .typeError)

/-- One element of `filterTime` (parset.py:1960). -/
def shiftItem (s : Sky) (δ : Int) (x : Item) : Except Err Str :=
  x.casesOn (fun _ => .error .typeError) (fun t => .ok (s.iso (s.inst t + δ))) (fun _ => .error .typeError)

/-- `filterTime` (parset.py:1960); an empty text is an empty loop. -/
def shiftList (s : Sky) (δ : Int) (v : PVal) : Except Err UVal :=
  v.casesOn (fun l => (mapE (shiftItem s δ) l).map UVal.list) (fun _ => .error .typeError) (fun _ => .error .typeError) (fun _ => .error .typeError) (fun _ => .error .typeError)
    (fun t => if t = [] then .ok (.list []) else .error .typeError)

/-- The params of a block while they are made. -/
abbrev Params := List (Str × UVal)

/-- A property of the fields is replaced by `f` of it, if it is there (parset.py:1949-1962). -/
def replaceIf (d : Props) (k : Str) (f : PVal → Except Err UVal) (p : Params) : Except Err Params :=
  (dictGet d k).elim (.ok p) fun v => (f v).map fun u => dictSet p k u

/-- The direction (parset.py:1969-1980). The missing keys of the two angles lead to `ra` and `dec`. -/
def fixedOf (s : Sky) (d : Props) : Except Err (Str × Str) :=
  ((dictGet d "angle1".toList).bind fun a => (dictGet d "angle2".toList).map fun b => s.degrees a b).getD
    (((dictGet d "ra".toList).bind fun a => (dictGet d "dec".toList).map fun b => s.texts a b).getD (.error .keyError))

/-- The target and the params with its coordinates (parset.py:1968-1985). -/
def aimOf (s : Sky) (d : Props) (p : Params) : Except Err (Aim × Params) :=
  if (dictGet d "directionType".toList).getD (.str "J2000".toList) = .str "J2000".toList then
    (fixedOf s d).map fun q => (.fixed q.1 q.2, dictSet (dictSet p "ra".toList (.text ('\'' :: q.1 ++ ['\'']))) "dec".toList (.text ('\'' :: q.2 ++ ['\''])))
  else (dictGet d "directionType".toList).elim (.error .keyError) fun v =>
    v.casesOn (fun _ => .error .attributeError) (fun _ => .error .attributeError) (fun _ => .error .attributeError) (fun _ => .error .attributeError) (fun _ => .error .attributeError)
      (fun n => if n ∈ s.bodies then .ok (.body n, p) else .error .keyError)

/-- The choice of the transit: both candidates are the next one (parset.py:1992-1994). -/
def transitOf (s : Sky) (a : Aim) (t : Int) : Int :=
  let prev := s.next a t
  let next := s.next a t
  if |prev - t| < |next - t| then prev else next

/-- The direction and the transit of a tracked source (parset.py:1967-1996); `start` is the shifted start time, if there is one. -/
def trackParams (s : Sky) (δ : Int) (d : Props) (p : Params) : Except Err Params :=
  (aimOf s d p).bind fun q => (dictGet d "startTime".toList).elim (.error .keyError) fun v =>
    v.casesOn (fun _ => .error .typeError) (fun _ => .error .typeError) (fun _ => .error .typeError) (fun _ => .error .typeError)
      (fun t => .ok (dictSet q.2 "transitDate".toList (.time (s.iso (transitOf s q.1 (s.inst t + δ)))))) (fun _ => .error .typeError)

/-- A block with a direction (parset.py:1948-1996). -/
def beamParams (s : Sky) (δ : Int) (duration : Option ℚ) (rows : List Row) (d : Props) : Except Err Params :=
  let f := d.filter fun p => p.1 ∈ rows.map Row.key
  (replaceIf f "startTime".toList (shiftTime s δ) (copyFields (fun t => s.iso (s.inst t)) rows d)).bind fun p =>
  (replaceIf f "filterTime".toList (shiftList s δ) (duration.elim p fun q => dictSet p "duration".toList (.delta q))).bind fun p =>
  (dictGet d "trackingType".toList).elim (.ok p) fun v => if v = .str "tracking".toList then trackParams s δ d p else .error .notImplemented

/-- The receivers without "seti" and "codalema" (parset.py:1998-2008). -/
def receiversOf (isot : Str → Str) (v : PVal) : Except Err UVal :=
  v.casesOn (fun l => .ok (.list (((l.erase (.str "seti".toList)).erase (.str "codalema".toList)).map (Item.text isot)))) (fun _ => .error .attributeError) (fun _ => .error .attributeError)
    (fun _ => .error .attributeError) (fun _ => .error .attributeError) (fun _ => .error .attributeError)

/-- `new_parameters` (parset.py:1946-2010): the rows tell whether it is a block with a direction. No block has both a direction and receivers. -/
def newParams (s : Sky) (δ : Int) (duration : Option ℚ) (rows : List Row) (d : Props) : Except Err Params :=
  if "trackingType".toList ∈ rows.map Row.key then beamParams s δ duration rows d
  else replaceIf (d.filter fun p => p.1 ∈ rows.map Row.key) "hd_receivers".toList (receiversOf fun t => s.iso (s.inst t)) (copyFields (fun t => s.iso (s.inst t)) rows d)

/-- A new block (parset.py:2013-2031). -/
def newBlock (s : Sky) (δ : Int) (duration : Option ℚ) (rows : List Row) (d : Props) : Except Err Block :=
  (newParams s δ duration rows d).map (modify (fresh rows))

/-- The loop over the numerical beams (parset.py:2019-2023). -/
def newBeams (s : Sky) (δ : Int) (duration : Option ℚ) : List (Nat × Props) → List (Block × List Block × List Block) → Except Err (List (Block × List Block × List Block))
  | [], l => .ok l
  | d :: ds, l => (newBlock s δ duration beamRows d.2).bind fun b => (noBeamOf d.2).bind fun n => (addBlock n b l).bind fun l => newBeams s δ duration ds l

/-- The loop over the phase centers (parset.py:2025-2029). -/
def newCenters (s : Sky) (δ : Int) (duration : Option ℚ) : List (Nat × Props) → List (Block × List Block × List Block) → Except Err (List (Block × List Block × List Block))
  | [], l => .ok l
  | d :: ds, l => (newBlock s δ duration pcRows d.2).bind fun b => (noBeamOf d.2).bind fun n => (addCenter n b l).bind fun l => newCenters s δ duration ds l

/-- `replay_from_parset` (parset.py:1927-2033). -/
def replay (s : Sky) (fromTime : Int) (duration : Option ℚ) (sameLst : Bool) (p : PSet) : Except Err UFile :=
  (replayShift s fromTime sameLst p).bind fun δ =>
  (newBlock s δ duration obsRows p.obs).bind fun o =>
  (mapE (fun a : Nat × Props => newBlock s δ duration anaRows a.2) p.anas).bind fun as =>
  (newBeams s δ duration p.digis (as.map fun a => (a, [], []))).bind fun l =>
  (newCenters s δ duration p.pcs l).bind fun l =>
  (newBlock s δ duration outRows p.out).map fun t => ⟨o, t, l⟩

end Verif.Parset
