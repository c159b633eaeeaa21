import Verif.Props.DateField
import Verif.XmlMap.Zones
/-
Property C106: datetimes with a time zone.

Model: `awareToXml` in Verif/XmlMap/Zones.lean, the other mappers in Verif/XmlMap/Mappers.lean, `managerGet`, `managerSet` in Verif/XmlMap/Manager.lean.
-/
namespace Props
open XPath Xml Spec Fields

/-- An aware datetime as Python can hold it: the wall-clock time exists, and the offset is less than a day to either side (`datetime.timezone` and any `tzinfo` are bound to that). -/
def RealAware (d : Aware) : Prop := RealDateTime d.wall ∧ -86400000000 < d.offset ∧ d.offset < 86400000000

/-- The offset is in whole minutes, as it is for every zone in use today. -/
def WholeMinutes (d : Aware) : Prop := ∃ k : Int, d.offset = k * 60000000

/-- The instant: wall-clock time minus offset, in microseconds from the start of the day. -/
def microOfDay (d : Aware) : Int := ((d.wall.hour * 3600 + d.wall.minute * 60 + d.wall.second : Nat) : Int) * 1000000 + d.wall.micro - d.offset

/-- What reading gives after an aware datetime has been assigned: the wall-clock time without the zone, or, when the offset has seconds, `ValueError`. -/
theorem C106_aware [PyUnicode] (eng : Engine) (heng : EngineOk eng) (ctx : Ctx) (xp : Str) (e : Expr) (p : List Step)
    (hf : SimpleField ctx xp e p) (hso : stringOk p = true) (normalize : Bool) (d : Aware) (hd : RealAware d)
    (a : Node.Addr) (s n : Node) (hs : s.get a = some n) (hw : Writable p n) :
    ∃ s', writeAs (awareToXml d) eng ctx xp e (.elem a) s = (.ok (), s') ∧
      (WholeMinutes d → readAs (dateTimeToPython normalize) eng ctx xp e (.elem a) s' = (.ok (some d.wall), s')) ∧
      (¬ WholeMinutes d → readAs (dateTimeToPython normalize) eng ctx xp e (.elem a) s' = (.error .valueError, s')) := by
  obtain ⟨hd, ho1, ho2⟩ := hd
  replace hd := (valid_iff d.wall).mpr hd
  have hoff : d.offset.natAbs < 86400000000 := by omega
  obtain ⟨hx, hb⟩ := aware_chars hd hoff
  obtain ⟨s', it, h1, h2, h3⟩ := write_then_item (conv := dateTimeToPython normalize) heng hf hso hx hs hw
  have h4 : dateTimeToPython normalize (some it) = (dateTimeParse (isoformat d.wall ++ offsetText d.offset)).map some := by
    rcases h3 with ⟨-, rfl⟩ | ⟨-, m, rfl, hm, -⟩
    · rfl
    · simp only [dateTimeToPython, hm, normSpace_noSpace hb, ite_self]
  refine ⟨s', h1, ?_, ?_⟩
  · rintro ⟨k, hk⟩
    rw [h2, h4, aware_minutes hd hoff (by omega)]; rfl
  · intro hk
    rw [h2, h4, aware_odd hd hoff (fun h => hk ⟨d.offset / 60000000, by omega⟩)]; rfl

/-- The zone is lost: of two datetimes in whole minutes, assigned one after the other or to two documents, what is read is the same exactly when the clock on the wall shows the same. -/
theorem C106_zone_is_lost [PyUnicode] (eng : Engine) (heng : EngineOk eng) (ctx : Ctx) (xp : Str) (e : Expr) (p : List Step)
    (hf : SimpleField ctx xp e p) (hso : stringOk p = true) (normalize : Bool) (d d' : Aware) (hd : RealAware d) (hd' : RealAware d') (hm : WholeMinutes d) (hm' : WholeMinutes d')
    (a : Node.Addr) (s n : Node) (hs : s.get a = some n) (hw : Writable p n) (s1 s2 : Node)
    (h1 : writeAs (awareToXml d) eng ctx xp e (.elem a) s = (.ok (), s1)) (h2 : writeAs (awareToXml d') eng ctx xp e (.elem a) s = (.ok (), s2)) :
    (readAs (dateTimeToPython normalize) eng ctx xp e (.elem a) s1).1 = (readAs (dateTimeToPython normalize) eng ctx xp e (.elem a) s2).1 ↔ d.wall = d'.wall := by
  obtain ⟨t1, w1, r1, -⟩ := C106_aware eng heng ctx xp e p hf hso normalize d hd a s n hs hw
  obtain ⟨t2, w2, r2, -⟩ := C106_aware eng heng ctx xp e p hf hso normalize d' hd' a s n hs hw
  rw [h1] at w1; rw [h2] at w2
  simp only [Prod.mk.injEq, true_and] at w1 w2
  subst w1 w2
  rw [r1 hm, r2 hm']
  simp

/-- Counterexample to a round trip of instants: noon in UTC and noon five hours east are two instants, and read as the same datetime. -/
theorem C106_counterexample_instants :
    microOfDay ⟨⟨2020, 1, 2, 12, 0, 0, 0⟩, 0⟩ ≠ microOfDay ⟨⟨2020, 1, 2, 12, 0, 0, 0⟩, 18000000000⟩ ∧
    awareToXml ⟨⟨2020, 1, 2, 12, 0, 0, 0⟩, 0⟩ = .ok (some c%"2020-01-02T12:00:00+00:00") ∧
    awareToXml ⟨⟨2020, 1, 2, 12, 0, 0, 0⟩, 18000000000⟩ = .ok (some c%"2020-01-02T12:00:00+05:00") ∧
    dateTimeParse c%"2020-01-02T12:00:00+00:00" = .ok ⟨2020, 1, 2, 12, 0, 0, 0⟩ ∧
    dateTimeParse c%"2020-01-02T12:00:00+05:00" = .ok ⟨2020, 1, 2, 12, 0, 0, 0⟩ := by decide +kernel

/-- Concrete cases: half past five behind UTC with microseconds; local mean time of Amsterdam before 1937 (19 minutes and 32 seconds). -/
example : awareToXml ⟨⟨2024, 2, 29, 23, 59, 59, 120⟩, -19800000000⟩ = .ok (some c%"2024-02-29T23:59:59.000120-05:30") ∧
    awareToXml ⟨⟨1930, 1, 1, 0, 0, 0, 0⟩, 1172000000⟩ = .ok (some c%"1930-01-01T00:00:00+00:19:32") ∧
    awareToXml ⟨⟨1930, 1, 1, 0, 0, 0, 0⟩, 1172000500⟩ = .ok (some c%"1930-01-01T00:00:00+00:19:32.000500") := by decide +kernel
example : RealAware ⟨⟨2024, 2, 29, 23, 59, 59, 120⟩, -19800000000⟩ ∧ WholeMinutes ⟨⟨2024, 2, 29, 23, 59, 59, 120⟩, -19800000000⟩ :=
  ⟨⟨(valid_iff _).mp (by decide), by decide, by decide⟩, -330, by decide⟩
example : RealAware ⟨⟨1930, 1, 1, 0, 0, 0, 0⟩, 1172000000⟩ ∧ ¬ WholeMinutes ⟨⟨1930, 1, 1, 0, 0, 0, 0⟩, 1172000000⟩ :=
  ⟨⟨(valid_iff _).mp (by decide), by decide, by decide⟩, fun ⟨k, hk⟩ => by simp only at hk; omega⟩
example : ∃ s', writeAs (awareToXml ⟨⟨2024, 2, 29, 23, 59, 59, 120⟩, -19800000000⟩) refEngine sampleCtx c%"m:a/@id" (ast c%"m:a/@id") (.elem []) sampleDoc
      = (.ok (), s') ∧
    readAs (dateTimeToPython true) refEngine sampleCtx c%"m:a/@id" (ast c%"m:a/@id") (.elem []) s' = (.ok (some ⟨2024, 2, 29, 23, 59, 59, 120⟩), s') := by
  obtain ⟨s', h1, h2, -⟩ := C106_aware refEngine refEngine_ok sampleCtx c%"m:a/@id" (ast c%"m:a/@id") [.child ⟨some c%"http://m", c%"a"⟩ [], .attr ⟨none, c%"id"⟩]
    { parse := by decide, path := by rfl, canonical := by decide, ok := by decide } (by decide) true ⟨⟨2024, 2, 29, 23, 59, 59, 120⟩, -19800000000⟩
    ⟨(valid_iff _).mp (by decide), by decide, by decide⟩ [] sampleDoc sampleDoc rfl (by trivial)
  exact ⟨s', h1, h2 ⟨-330, by decide⟩⟩

end Props
