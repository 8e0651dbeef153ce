import Verif.Instru.Radio

/-!
# Model of the pointing of mini-arrays: `nenupy/instru/nenufar.py` and `instrument_tools.py`

Angles of pointings are in degrees, over exact reals.
-/

namespace Verif.Instru

/-! ## Beam squint -/

/-- `squint_table['elev_desiree']` (read at `instru/__init__.py`:24), in units of 1 / 524288 degree: one row for each frequency. -/
def squintRows : List (List Nat) :=
  [[0, 28053778, 28053778, 28053778, 28073438, 28118148, 28162858, 28208734, 28274270, 28324806, 28363108, 28423400, 28506996,
    28584764, 28667776, 28744818, 28818510, 28878074, 28926134, 28995748, 29112110, 29209832, 29354302, 29508094, 29638582,
    29776646, 29919368, 30036896, 30172046, 30330062, 30465794, 30617836, 30779346, 30929206, 31100910, 31290236, 31481892,
    31678500, 31892294, 32100260, 32301238, 32510080, 32733776, 32944802, 33167332, 33379814, 33625356, 33843664, 34098528,
    34335184, 34581164, 34835880, 35099624, 35350264, 35619836, 35889988, 36161164, 36448940, 36734240, 37018664, 37322316,
    37609072, 37887964, 38190740, 38483468, 38774740, 39074312, 39391360, 39716564, 40052252, 40374544, 40717080, 41047964,
    41378264, 41705656, 42052120, 42415480, 42765588, 43109872, 43436680, 43734212, 44001016, 44328404, 44628704, 45058620,
    45444992, 45759564, 46074140, 46451916, 46661632, 47185920],
   [0, 17301504, 17825792, 18350080, 18874368, 19398656, 19889740, 20334802, 20700930, 20978510, 21158080, 21299636, 21400270,
    21495372, 21604890, 21738728, 21858150, 21988784, 22126992, 22257774, 22390302, 22520208, 22687980, 22846432, 23020030,
    23207316, 23409460, 23595728, 23811558, 24016760, 24239290, 24474492, 24713480, 24938632, 25195388, 25435686, 25716618,
    25967984, 26249352, 26540624, 26842090, 27135690, 27453176, 27771826, 28079992, 28405050, 28732438, 29084586, 29434402,
    29810724, 30172484, 30533804, 30883038, 31252080, 31621994, 31987394, 32360658, 32758242, 33161360, 33559236, 33973860,
    34383972, 34797576, 35215844, 35626680, 36052372, 36484036, 36910456, 37335712, 37761844, 38194528, 38633764, 39078828,
    39520976, 39959776, 40394644, 40827036, 41266564, 41709296, 42167900, 42635100, 43103900, 43580128, 44068880, 44527196,
    45027020, 45446448, 45865880, 46285308, 46661632, 47185920],
   [0, 11534336, 12058624, 12582912, 13107200, 13631488, 14155776, 14680064, 15204352, 15728640, 16252928, 16702796, 17062954,
    17377526, 17587242, 17767684, 17928174, 18092306, 18223522, 18429742, 18568534, 18753200, 18962914, 19174814, 19379286,
    19636334, 19887554, 20133824, 20400628, 20673404, 20936568, 21210944, 21521002, 21839070, 22145342, 22499528, 22818180,
    23151394, 23500918, 23846948, 24173318, 24573378, 24961352, 25329518, 25725792, 26142602, 26534216, 26928596, 27356182,
    27769496, 28183246, 28621318, 29079780, 29487558, 29921116, 30354528, 30789104, 31226156, 31717822, 32212982, 32684842,
    33150876, 33615016, 34067068, 34513296, 34981512, 35453520, 35928292, 36416460, 36892400, 37370228, 37847184, 38325452,
    38816536, 39329172, 39845888, 40365516, 40876404, 41390208, 41880128, 42366988, 42835496, 43294976, 43725620, 44179420,
    44636280, 45116148, 45613784, 46137344, 46661632, 47185920],
   [0, 8912896, 9437184, 9961472, 10485760, 11010048, 11534336, 12058624, 12582912, 13107200, 13631488, 14120241, 14537341,
    14893274, 15180468, 15407077, 15591160, 15786312, 15969812, 16177197, 16392738, 16621095, 16847704, 17119750, 17360340,
    17648700, 17912590, 18227164, 18511444, 18824852, 19142920, 19486620, 19801192, 20173438, 20592868, 20930742, 21309394,
    21728824, 22130778, 22512344, 22925366, 23356448, 23775878, 24206376, 24636876, 25091258, 25540398, 25984878, 26410716,
    26856944, 27329386, 27787264, 28250968, 28736226, 29212162, 29684604, 30173938, 30651624, 31121152, 31590100, 32061376,
    32540808, 33042378, 33555596, 34078720, 34601844, 35119724, 35637020, 36147912, 36650644, 37145224, 37639220, 38117484,
    38599832, 39081012, 39558696, 40024144, 40500084, 40974856, 41458948, 41955856, 42470824, 42991616, 43515904, 44040192,
    44564480, 45088768, 45613056, 46137344, 46661632, 47185920],
   [0, 7340032, 7864320, 8388608, 8912896, 9437184, 9961472, 10485760, 11010048, 11534336, 12049886, 12531648, 12952244,
    13315167, 13609934, 13847029, 14057326, 14276362, 14496563, 14726085, 14967840, 15219498, 15474069, 15752524, 16035057,
    16347300, 16664203, 17000912, 17341116, 17687730, 18058808, 18454356, 18862134, 19233214, 19652644, 20072074, 20513060,
    20969190, 21388620, 21808050, 22227482, 22646912, 23068672, 23592960, 24117248, 24595516, 25066792, 25532244, 25956334,
    26375764, 26841216, 27313658, 27791924, 28311552, 28835840, 29360128, 29884416, 30408704, 30931826, 31449706, 31967004,
    32474398, 32972472, 33465886, 33961048, 34450964, 34940300, 35432112, 35922612, 36415444, 36884972, 37356248, 37834372,
    38319628, 38806052, 39321600, 39845888, 40370176, 40894464, 41418752, 41943040, 42467328, 42991616, 43515904, 44040192,
    44564480, 45088768, 45613056, 46137344, 46661632, 47185920],
   [0, 6291456, 6815744, 7340032, 7864320, 8388608, 8912896, 9437184, 9961472, 10485760, 10975678, 11423070, 11834345, 12161734,
    12429121, 12675536, 12920204, 13136910, 13397306, 13653042, 13926837, 14195972, 14498893, 14804145, 15149010, 15478147,
    15832915, 16205159, 16584977, 16964212, 17377816, 17792586, 18208522, 18613388, 19043888, 19493028, 19964304, 20447232,
    20946470, 21429398, 21848828, 22268260, 22687690, 23132170, 23592960, 24117248, 24641536, 25165824, 25690112, 26214400,
    26738688, 27262976, 27787264, 28310386, 28825936, 29343234, 29850628, 30347538, 30824640, 31304654, 31778260, 32251284,
    32733630, 33231122, 33727448, 34220276, 34714856, 35203608, 35698188, 36198592, 36707152, 37224448, 37748736, 38273024,
    38797312, 39321600, 39845888, 40370176, 40894464, 41418752, 41943040, 42467328, 42991616, 43515904, 44040192, 44564480,
    45088768, 45613056, 46137344, 46661632, 47185920],
   [0, 5242880, 5767168, 6291456, 6815744, 7340032, 7864320, 8388608, 8912896, 9437184, 9928267, 10382650, 10805576, 11168499,
    11470839, 11759780, 12027749, 12275330, 12538056, 12822337, 13100209, 13414782, 13733433, 14070142, 14430736, 14814049,
    15194449, 15613297, 16033892, 16430603, 16848286, 17279368, 17718604, 18167744, 18653584, 19117288, 19575748, 20035374,
    20510146, 20987248, 21495808, 22020096, 22544384, 23068672, 23592960, 24117248, 24641536, 25165824, 25690112, 26212070,
    26727038, 27205304, 27678912, 28149022, 28621464, 29092742, 29601884, 30078986, 30559000, 31034936, 31516700, 31997296,
    32514594, 33032474, 33554432, 34078720, 34603008, 35127296, 35651584, 36175872, 36700160, 37224448, 37748736, 38273024,
    38797312, 39321600, 39845888, 40370176, 40894464, 41418752, 41943040, 42467328, 42991616, 43515904, 44040192, 44564480,
    45088768, 45613056, 46137344, 46661632, 47185920],
   [0, 4718592, 5242880, 5767168, 6291456, 6815744, 7340032, 7864320, 8388608, 8879691, 9343395, 9762825, 10132739, 10459546,
    10748487, 11024029, 11285590, 11559385, 11836093, 12137850, 12446015, 12788550, 13136910, 13489930, 13879651, 14285100,
    14689967, 15114058, 15566693, 16022824, 16476042, 16939746, 17394128, 17856666, 18312214, 18791648, 19285060, 19801192,
    20319656, 20839284, 21356580, 21876208, 22395836, 22895658, 23414120, 23912194, 24407936, 24857076, 25322528, 25780988,
    26259838, 26738688, 27262976, 27787264, 28311552, 28835840, 29360128, 29884416, 30408704, 30932992, 31457280, 31981568,
    32505856, 33030144, 33554432, 34078720, 34603008, 35127296, 35651584, 36175872, 36700160, 37224448, 37748736, 38273024,
    38797312, 39321600, 39845888, 40370176, 40894464, 41418752, 41943040, 42467328, 42991616, 43515904, 44040192, 44564480,
    45088768, 45613056, 46137344, 46661632, 47185920]]

/-- `squint_table['freq']` (nenufar.py:888), in MHz. -/
def squintFreqs : List ℝ := [10, 20, 30, 40, 50, 60, 70, 80]

/-- `squint_table['elev_a_pointer']` (nenufar.py:892): whole degrees. -/
def squintPointed : List ℝ := (List.range 91).map fun n : Nat => (n : ℝ)

/-- A row of the table, in degrees (nenufar.py:892). -/
noncomputable def squintRow (k : Nat) : List ℝ := (squintRows.getD k []).map fun n : Nat => (n : ℝ) / 524288

/-- `np.argmin` of a list (nenufar.py:887-889): position of the first of the smallest elements. -/
noncomputable def firstLeast (l : List ℝ) : Nat := l.findIdx fun x => decide (∀ y ∈ l, x ≤ y)

/-- `freq_idx` (nenufar.py:887-889). -/
noncomputable def squintIndex (f : ℝ) : Nat := firstLeast (squintFreqs.map fun g => |g - f|)

/-- `beamsquint_correction` (nenufar.py:861-902): the elevation to point at; the azimuth is kept. -/
noncomputable def squint (f elev : ℝ) : ℝ := npInterp (squintRow (squintIndex f)) squintPointed elev

/-! ## Empirical correction -/

/-- The tables of a correction file, in minutes of arc, by whole degrees of elevation (from 15) and of azimuth
(instrument_tools.py:654-658). -/
structure CorTable where
  daz : Nat → Nat → ℝ
  dalt : Nat → Nat → ℝ

/-- Bilinear value of a table at fractions `s`, `t` of a cell. Used for instrument_tools.py:661-662. -/
def bilinear (v : Nat → Nat → ℝ) (i j : Nat) (s t : ℝ) : ℝ :=
  (1 - s) * ((1 - t) * v i j + t * v i (j + 1)) + s * ((1 - t) * v (i + 1) j + t * v (i + 1) (j + 1))

/-- Cell of an abscissa in an axis of unit steps from 0 to `n`: the last cell holds the end. Used for
instrument_tools.py:657-662. -/
noncomputable def cellOf (n : Nat) (x : ℝ) : Nat := min ⌊x⌋₊ (n - 1)

/-- `RegularGridInterpolator((alt_vector, az_vector), …)` (instrument_tools.py:657-662). -/
noncomputable def gridValue (v : Nat → Nat → ℝ) (alt az : ℝ) : ℝ :=
  bilinear v (15 + cellOf 75 (alt - 15)) (cellOf 360 az) (alt - 15 - cellOf 75 (alt - 15)) (az - cellOf 360 az)

/-- The correction file of a year, if there is one (instrument_tools.py:635-651). -/
def yearTable (t2022 t2019 : CorTable) (year : String) : Option CorTable :=
  if year = "2022" then some t2022 else if year = "2019" then some t2019 else none

/-- `Latitude` refuses elevations out of range (instrument_tools.py:672-676). -/
noncomputable def checkAlt (p : ℝ × ℝ) : Except Err (ℝ × ℝ) := if |p.2| ≤ 90 then .ok p else .error .valueError

/-- The corrected coordinates of one position (azimuth, elevation) (instrument_tools.py:632, 665-676), before azimuths are taken modulo
360 degrees. -/
noncomputable def corrected (c : CorTable) (p : ℝ × ℝ) : ℝ × ℝ :=
  if 15 < p.2 then (p.1 + gridValue c.daz p.2 p.1 / 60, p.2 + gridValue c.dalt p.2 p.1 / 60) else p

/-- `pointing_correction` (instrument_tools.py:569-678) on positions of a frame which is horizontal or not; one bad elevation
stops the call. -/
noncomputable def correction (t2022 t2019 : CorTable) (horizontal : Bool) (year : String) (ps : List (ℝ × ℝ)) :
    Except Err (List (ℝ × ℝ)) :=
  if horizontal = false then .error .valueError
  else (yearTable t2022 t2019 year).elim (.ok ps) fun c => ps.mapM fun p => checkAlt (corrected c p)

/-! ## Attenuation -/

/-- A `SkyCoord` of equatorial positions and its attribute `obstime` (nenufar.py:768-774); `location` goes with it. -/
structure SkyObj (D T : Type) where
  dirs : List D
  obstime : Option T

/-- The attribute set on the object of the caller (nenufar.py:768-771). -/
def SkyObj.stamp {D T : Type} (c : SkyObj D T) (t : T) : SkyObj D T := ⟨c.dirs, some (c.obstime.getD t)⟩

open Classical in
/-- `attenuation_from_zenith` at one frequency and polarisation (nenufar.py:693-792): the object of the caller afterwards and the
result. `insert` refuses a zenith of another time (nenufar.py:774); `beam` is the gain of the mini-array pointed at the zenith. -/
noncomputable def attenuation {D T : Type} (alt beam : D → T → ℝ) (zenith : T → D) (c : SkyObj D T) (t : T) :
    SkyObj D T × Except Err (List (Option ℝ)) :=
  (c.stamp t, if (c.stamp t).obstime ≠ some t then .error .valueError
    else .ok (c.dirs.map fun d => if alt d t ≤ 0 then none else over (beam d t) (beam (zenith t) t)))

end Verif.Instru
