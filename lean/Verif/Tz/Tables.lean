import Verif.Calendar.Props
/-!
# Daylight saving tables (`riptable/rt_timezone.py:11-989`)

The tables are date strings in the source, turned into nanoseconds by `rc.DateTimeStringToNanos` (`:1333-1346`, C++).  Here an
entry is (year, month, day, hour, minute); `Entry.nanos` is the contract of the conversion.
-/
namespace Verif.Tz
open Verif.Calendar

def nanosPerMinute : Int := 60000000000
def nanosPerHour : Int := 3600000000000
def nanosPerDay : Int := 86400000000000

/-- an entry of a table: year, month, day, hour, minute -/
structure Entry where
  y : Nat
  m : Nat
  d : Nat
  h : Nat
  mi : Nat
deriving DecidableEq

/-- nanoseconds since 1970-01-01 00:00 of the wall clock time of an entry -/
def Entry.nanos (e : Entry) : Int := dayNumber e.y e.m e.d * nanosPerDay + e.h * nanosPerHour + e.mi * nanosPerMinute

/-- `DST_CUTOFFS_NYC` (`:11-156`) -/
def nycCutoffs : List Entry := [
  ⟨1970, 4, 26, 2, 0⟩, ⟨1970, 10, 25, 2, 0⟩, ⟨1971, 4, 25, 2, 0⟩, ⟨1971, 10, 31, 2, 0⟩, ⟨1972, 4, 30, 2, 0⟩, ⟨1972, 10, 29, 2, 0⟩,
  ⟨1973, 4, 29, 2, 0⟩, ⟨1973, 10, 28, 2, 0⟩, ⟨1974, 1, 6, 2, 0⟩, ⟨1974, 10, 27, 2, 0⟩, ⟨1975, 2, 23, 2, 0⟩, ⟨1975, 10, 26, 2, 0⟩,
  ⟨1976, 4, 25, 2, 0⟩, ⟨1976, 10, 31, 2, 0⟩, ⟨1977, 4, 24, 2, 0⟩, ⟨1977, 10, 30, 2, 0⟩, ⟨1978, 4, 30, 2, 0⟩, ⟨1978, 10, 29, 2, 0⟩,
  ⟨1979, 4, 29, 2, 0⟩, ⟨1979, 10, 28, 2, 0⟩, ⟨1980, 4, 27, 2, 0⟩, ⟨1980, 10, 26, 2, 0⟩, ⟨1981, 4, 26, 2, 0⟩, ⟨1981, 10, 25, 2, 0⟩,
  ⟨1982, 4, 25, 2, 0⟩, ⟨1982, 10, 31, 2, 0⟩, ⟨1983, 4, 24, 2, 0⟩, ⟨1983, 10, 30, 2, 0⟩, ⟨1984, 4, 29, 2, 0⟩, ⟨1984, 10, 28, 2, 0⟩,
  ⟨1985, 4, 28, 2, 0⟩, ⟨1985, 10, 27, 2, 0⟩, ⟨1986, 4, 27, 2, 0⟩, ⟨1986, 10, 26, 2, 0⟩, ⟨1987, 4, 5, 2, 0⟩, ⟨1987, 10, 25, 2, 0⟩,
  ⟨1988, 4, 3, 2, 0⟩, ⟨1988, 10, 30, 2, 0⟩, ⟨1989, 4, 2, 2, 0⟩, ⟨1989, 10, 29, 2, 0⟩, ⟨1990, 4, 1, 2, 0⟩, ⟨1990, 10, 28, 2, 0⟩,
  ⟨1991, 4, 7, 2, 0⟩, ⟨1991, 10, 27, 2, 0⟩, ⟨1992, 4, 5, 2, 0⟩, ⟨1992, 10, 25, 2, 0⟩, ⟨1993, 4, 4, 2, 0⟩, ⟨1993, 10, 31, 2, 0⟩,
  ⟨1994, 4, 3, 2, 0⟩, ⟨1994, 10, 30, 2, 0⟩, ⟨1995, 4, 2, 2, 0⟩, ⟨1995, 10, 29, 2, 0⟩, ⟨1996, 4, 7, 2, 0⟩, ⟨1996, 10, 27, 2, 0⟩,
  ⟨1997, 4, 6, 2, 0⟩, ⟨1997, 10, 26, 2, 0⟩, ⟨1998, 4, 5, 2, 0⟩, ⟨1998, 10, 25, 2, 0⟩, ⟨1999, 4, 4, 2, 0⟩, ⟨1999, 10, 31, 2, 0⟩,
  ⟨2000, 4, 2, 2, 0⟩, ⟨2000, 10, 29, 2, 0⟩, ⟨2001, 4, 1, 2, 0⟩, ⟨2001, 10, 28, 2, 0⟩, ⟨2002, 4, 7, 2, 0⟩, ⟨2002, 10, 27, 2, 0⟩,
  ⟨2003, 4, 6, 2, 0⟩, ⟨2003, 10, 26, 2, 0⟩, ⟨2004, 4, 4, 2, 0⟩, ⟨2004, 10, 31, 2, 0⟩, ⟨2005, 4, 3, 2, 0⟩, ⟨2005, 10, 30, 2, 0⟩,
  ⟨2006, 4, 2, 2, 0⟩, ⟨2006, 10, 29, 2, 0⟩, ⟨2007, 3, 11, 2, 0⟩, ⟨2007, 11, 4, 2, 0⟩, ⟨2008, 3, 9, 2, 0⟩, ⟨2008, 11, 2, 2, 0⟩,
  ⟨2009, 3, 8, 2, 0⟩, ⟨2009, 11, 1, 2, 0⟩, ⟨2010, 3, 14, 2, 0⟩, ⟨2010, 11, 7, 2, 0⟩, ⟨2011, 3, 13, 2, 0⟩, ⟨2011, 11, 6, 2, 0⟩,
  ⟨2012, 3, 11, 2, 0⟩, ⟨2012, 11, 4, 2, 0⟩, ⟨2013, 3, 10, 2, 0⟩, ⟨2013, 11, 3, 2, 0⟩, ⟨2014, 3, 9, 2, 0⟩, ⟨2014, 11, 2, 2, 0⟩,
  ⟨2015, 3, 8, 2, 0⟩, ⟨2015, 11, 1, 2, 0⟩, ⟨2016, 3, 13, 2, 0⟩, ⟨2016, 11, 6, 2, 0⟩, ⟨2017, 3, 12, 2, 0⟩, ⟨2017, 11, 5, 2, 0⟩,
  ⟨2018, 3, 11, 2, 0⟩, ⟨2018, 11, 4, 2, 0⟩, ⟨2019, 3, 10, 2, 0⟩, ⟨2019, 11, 3, 2, 0⟩, ⟨2020, 3, 8, 2, 0⟩, ⟨2020, 11, 1, 2, 0⟩,
  ⟨2021, 3, 14, 2, 0⟩, ⟨2021, 11, 7, 2, 0⟩, ⟨2022, 3, 13, 2, 0⟩, ⟨2022, 11, 6, 2, 0⟩, ⟨2023, 3, 12, 2, 0⟩, ⟨2023, 11, 5, 2, 0⟩,
  ⟨2024, 3, 10, 2, 0⟩, ⟨2024, 11, 3, 2, 0⟩, ⟨2025, 3, 9, 2, 0⟩, ⟨2025, 11, 2, 2, 0⟩, ⟨2026, 3, 8, 2, 0⟩, ⟨2026, 11, 1, 2, 0⟩,
  ⟨2027, 3, 14, 2, 0⟩, ⟨2027, 11, 7, 2, 0⟩, ⟨2028, 3, 12, 2, 0⟩, ⟨2028, 11, 5, 2, 0⟩, ⟨2029, 3, 11, 2, 0⟩, ⟨2029, 11, 4, 2, 0⟩,
  ⟨2030, 3, 10, 2, 0⟩, ⟨2030, 11, 3, 2, 0⟩, ⟨2031, 3, 9, 2, 0⟩, ⟨2031, 11, 2, 2, 0⟩, ⟨2032, 3, 14, 2, 0⟩, ⟨2032, 11, 7, 2, 0⟩,
  ⟨2033, 3, 13, 2, 0⟩, ⟨2033, 11, 6, 2, 0⟩, ⟨2034, 3, 12, 2, 0⟩, ⟨2034, 11, 5, 2, 0⟩, ⟨2035, 3, 11, 2, 0⟩, ⟨2035, 11, 4, 2, 0⟩,
  ⟨2036, 3, 9, 2, 0⟩, ⟨2036, 11, 2, 2, 0⟩, ⟨2037, 3, 8, 2, 0⟩, ⟨2037, 11, 1, 2, 0⟩, ⟨2038, 3, 14, 2, 0⟩, ⟨2038, 11, 7, 2, 0⟩,
  ⟨2039, 3, 13, 2, 0⟩, ⟨2039, 11, 6, 2, 0⟩, ⟨2040, 3, 11, 2, 0⟩, ⟨2040, 11, 4, 2, 0⟩]

/-- `DST_REVERSE_NYC` (`:158-303`) -/
def nycReverse : List Entry := [
  ⟨1970, 4, 26, 7, 0⟩, ⟨1970, 10, 25, 6, 0⟩, ⟨1971, 4, 25, 7, 0⟩, ⟨1971, 10, 31, 6, 0⟩, ⟨1972, 4, 30, 7, 0⟩, ⟨1972, 10, 29, 6, 0⟩,
  ⟨1973, 4, 29, 7, 0⟩, ⟨1973, 10, 28, 6, 0⟩, ⟨1974, 1, 6, 7, 0⟩, ⟨1974, 10, 27, 6, 0⟩, ⟨1975, 2, 23, 7, 0⟩, ⟨1975, 10, 26, 6, 0⟩,
  ⟨1976, 4, 25, 7, 0⟩, ⟨1976, 10, 31, 6, 0⟩, ⟨1977, 4, 24, 7, 0⟩, ⟨1977, 10, 30, 6, 0⟩, ⟨1978, 4, 30, 7, 0⟩, ⟨1978, 10, 29, 6, 0⟩,
  ⟨1979, 4, 29, 7, 0⟩, ⟨1979, 10, 28, 6, 0⟩, ⟨1980, 4, 27, 7, 0⟩, ⟨1980, 10, 26, 6, 0⟩, ⟨1981, 4, 26, 7, 0⟩, ⟨1981, 10, 25, 6, 0⟩,
  ⟨1982, 4, 25, 7, 0⟩, ⟨1982, 10, 31, 6, 0⟩, ⟨1983, 4, 24, 7, 0⟩, ⟨1983, 10, 30, 6, 0⟩, ⟨1984, 4, 29, 7, 0⟩, ⟨1984, 10, 28, 6, 0⟩,
  ⟨1985, 4, 28, 7, 0⟩, ⟨1985, 10, 27, 6, 0⟩, ⟨1986, 4, 27, 7, 0⟩, ⟨1986, 10, 26, 6, 0⟩, ⟨1987, 4, 5, 7, 0⟩, ⟨1987, 10, 25, 6, 0⟩,
  ⟨1988, 4, 3, 7, 0⟩, ⟨1988, 10, 30, 6, 0⟩, ⟨1989, 4, 2, 7, 0⟩, ⟨1989, 10, 29, 6, 0⟩, ⟨1990, 4, 1, 7, 0⟩, ⟨1990, 10, 28, 6, 0⟩,
  ⟨1991, 4, 7, 7, 0⟩, ⟨1991, 10, 27, 6, 0⟩, ⟨1992, 4, 5, 7, 0⟩, ⟨1992, 10, 25, 6, 0⟩, ⟨1993, 4, 4, 7, 0⟩, ⟨1993, 10, 31, 6, 0⟩,
  ⟨1994, 4, 3, 7, 0⟩, ⟨1994, 10, 30, 6, 0⟩, ⟨1995, 4, 2, 7, 0⟩, ⟨1995, 10, 29, 6, 0⟩, ⟨1996, 4, 7, 7, 0⟩, ⟨1996, 10, 27, 6, 0⟩,
  ⟨1997, 4, 6, 7, 0⟩, ⟨1997, 10, 26, 6, 0⟩, ⟨1998, 4, 5, 7, 0⟩, ⟨1998, 10, 25, 6, 0⟩, ⟨1999, 4, 4, 7, 0⟩, ⟨1999, 10, 31, 6, 0⟩,
  ⟨2000, 4, 2, 7, 0⟩, ⟨2000, 10, 29, 6, 0⟩, ⟨2001, 4, 1, 7, 0⟩, ⟨2001, 10, 28, 6, 0⟩, ⟨2002, 4, 7, 7, 0⟩, ⟨2002, 10, 27, 6, 0⟩,
  ⟨2003, 4, 6, 7, 0⟩, ⟨2003, 10, 26, 6, 0⟩, ⟨2004, 4, 4, 7, 0⟩, ⟨2004, 10, 31, 6, 0⟩, ⟨2005, 4, 3, 7, 0⟩, ⟨2005, 10, 30, 6, 0⟩,
  ⟨2006, 4, 2, 7, 0⟩, ⟨2006, 10, 29, 6, 0⟩, ⟨2007, 3, 11, 7, 0⟩, ⟨2007, 11, 4, 6, 0⟩, ⟨2008, 3, 9, 7, 0⟩, ⟨2008, 11, 2, 6, 0⟩,
  ⟨2009, 3, 8, 7, 0⟩, ⟨2009, 11, 1, 6, 0⟩, ⟨2010, 3, 14, 7, 0⟩, ⟨2010, 11, 7, 6, 0⟩, ⟨2011, 3, 13, 7, 0⟩, ⟨2011, 11, 6, 6, 0⟩,
  ⟨2012, 3, 11, 7, 0⟩, ⟨2012, 11, 4, 6, 0⟩, ⟨2013, 3, 10, 7, 0⟩, ⟨2013, 11, 3, 6, 0⟩, ⟨2014, 3, 9, 7, 0⟩, ⟨2014, 11, 2, 6, 0⟩,
  ⟨2015, 3, 8, 7, 0⟩, ⟨2015, 11, 1, 6, 0⟩, ⟨2016, 3, 13, 7, 0⟩, ⟨2016, 11, 6, 6, 0⟩, ⟨2017, 3, 12, 7, 0⟩, ⟨2017, 11, 5, 6, 0⟩,
  ⟨2018, 3, 11, 7, 0⟩, ⟨2018, 11, 4, 6, 0⟩, ⟨2019, 3, 10, 7, 0⟩, ⟨2019, 11, 3, 6, 0⟩, ⟨2020, 3, 8, 7, 0⟩, ⟨2020, 11, 1, 6, 0⟩,
  ⟨2021, 3, 14, 7, 0⟩, ⟨2021, 11, 7, 6, 0⟩, ⟨2022, 3, 13, 7, 0⟩, ⟨2022, 11, 6, 6, 0⟩, ⟨2023, 3, 12, 7, 0⟩, ⟨2023, 11, 5, 6, 0⟩,
  ⟨2024, 3, 10, 7, 0⟩, ⟨2024, 11, 3, 6, 0⟩, ⟨2025, 3, 9, 7, 0⟩, ⟨2025, 11, 2, 6, 0⟩, ⟨2026, 3, 8, 7, 0⟩, ⟨2026, 11, 1, 6, 0⟩,
  ⟨2027, 3, 14, 7, 0⟩, ⟨2027, 11, 7, 6, 0⟩, ⟨2028, 3, 12, 7, 0⟩, ⟨2028, 11, 5, 6, 0⟩, ⟨2029, 3, 11, 7, 0⟩, ⟨2029, 11, 4, 6, 0⟩,
  ⟨2030, 3, 10, 7, 0⟩, ⟨2030, 11, 3, 6, 0⟩, ⟨2031, 3, 9, 7, 0⟩, ⟨2031, 11, 2, 6, 0⟩, ⟨2032, 3, 14, 7, 0⟩, ⟨2032, 11, 7, 6, 0⟩,
  ⟨2033, 3, 13, 7, 0⟩, ⟨2033, 11, 6, 6, 0⟩, ⟨2034, 3, 12, 7, 0⟩, ⟨2034, 11, 5, 6, 0⟩, ⟨2035, 3, 11, 7, 0⟩, ⟨2035, 11, 4, 6, 0⟩,
  ⟨2036, 3, 9, 7, 0⟩, ⟨2036, 11, 2, 6, 0⟩, ⟨2037, 3, 8, 7, 0⟩, ⟨2037, 11, 1, 6, 0⟩, ⟨2038, 3, 14, 7, 0⟩, ⟨2038, 11, 7, 6, 0⟩,
  ⟨2039, 3, 13, 7, 0⟩, ⟨2039, 11, 6, 6, 0⟩, ⟨2040, 3, 11, 7, 0⟩, ⟨2040, 11, 4, 6, 0⟩]

/-- `DST_CUTOFFS_DUBLIN` (`:312-453`) -/
def dublinCutoffs : List Entry := [
  ⟨1972, 3, 19, 2, 0⟩, ⟨1972, 10, 29, 2, 0⟩, ⟨1973, 3, 18, 2, 0⟩, ⟨1973, 10, 28, 2, 0⟩, ⟨1974, 3, 17, 2, 0⟩, ⟨1974, 10, 27, 2, 0⟩,
  ⟨1975, 3, 16, 2, 0⟩, ⟨1975, 10, 26, 2, 0⟩, ⟨1976, 3, 21, 2, 0⟩, ⟨1976, 10, 24, 2, 0⟩, ⟨1977, 3, 20, 2, 0⟩, ⟨1977, 10, 23, 2, 0⟩,
  ⟨1978, 3, 19, 2, 0⟩, ⟨1978, 10, 29, 2, 0⟩, ⟨1979, 3, 18, 2, 0⟩, ⟨1979, 10, 28, 2, 0⟩, ⟨1980, 3, 16, 2, 0⟩, ⟨1980, 10, 26, 2, 0⟩,
  ⟨1981, 3, 29, 2, 0⟩, ⟨1981, 10, 25, 2, 0⟩, ⟨1982, 3, 28, 2, 0⟩, ⟨1982, 10, 24, 2, 0⟩, ⟨1983, 3, 27, 2, 0⟩, ⟨1983, 10, 23, 2, 0⟩,
  ⟨1984, 3, 25, 2, 0⟩, ⟨1984, 10, 28, 2, 0⟩, ⟨1985, 3, 31, 2, 0⟩, ⟨1985, 10, 27, 2, 0⟩, ⟨1986, 3, 30, 2, 0⟩, ⟨1986, 10, 26, 2, 0⟩,
  ⟨1987, 3, 29, 2, 0⟩, ⟨1987, 10, 25, 2, 0⟩, ⟨1988, 3, 27, 2, 0⟩, ⟨1988, 10, 23, 2, 0⟩, ⟨1989, 3, 26, 2, 0⟩, ⟨1989, 10, 29, 2, 0⟩,
  ⟨1990, 3, 25, 2, 0⟩, ⟨1990, 10, 28, 2, 0⟩, ⟨1991, 3, 31, 2, 0⟩, ⟨1991, 10, 27, 2, 0⟩, ⟨1992, 3, 29, 2, 0⟩, ⟨1992, 10, 25, 2, 0⟩,
  ⟨1993, 3, 28, 2, 0⟩, ⟨1993, 10, 24, 2, 0⟩, ⟨1994, 3, 27, 2, 0⟩, ⟨1994, 10, 23, 2, 0⟩, ⟨1995, 3, 26, 2, 0⟩, ⟨1995, 10, 22, 2, 0⟩,
  ⟨1996, 3, 31, 2, 0⟩, ⟨1996, 10, 27, 2, 0⟩, ⟨1997, 3, 30, 2, 0⟩, ⟨1997, 10, 26, 2, 0⟩, ⟨1998, 3, 29, 2, 0⟩, ⟨1998, 10, 25, 2, 0⟩,
  ⟨1999, 3, 28, 2, 0⟩, ⟨1999, 10, 31, 2, 0⟩, ⟨2000, 3, 26, 2, 0⟩, ⟨2000, 10, 29, 2, 0⟩, ⟨2001, 3, 25, 2, 0⟩, ⟨2001, 10, 28, 2, 0⟩,
  ⟨2002, 3, 31, 2, 0⟩, ⟨2002, 10, 27, 2, 0⟩, ⟨2003, 3, 30, 2, 0⟩, ⟨2003, 10, 26, 2, 0⟩, ⟨2004, 3, 28, 2, 0⟩, ⟨2004, 10, 31, 2, 0⟩,
  ⟨2005, 3, 27, 2, 0⟩, ⟨2005, 10, 30, 2, 0⟩, ⟨2006, 3, 26, 2, 0⟩, ⟨2006, 10, 29, 2, 0⟩, ⟨2007, 3, 25, 2, 0⟩, ⟨2007, 10, 28, 2, 0⟩,
  ⟨2008, 3, 30, 2, 0⟩, ⟨2008, 10, 26, 2, 0⟩, ⟨2009, 3, 29, 2, 0⟩, ⟨2009, 10, 25, 2, 0⟩, ⟨2010, 3, 28, 2, 0⟩, ⟨2010, 10, 31, 2, 0⟩,
  ⟨2011, 3, 27, 2, 0⟩, ⟨2011, 10, 30, 2, 0⟩, ⟨2012, 3, 25, 2, 0⟩, ⟨2012, 10, 28, 2, 0⟩, ⟨2013, 3, 31, 2, 0⟩, ⟨2013, 10, 27, 2, 0⟩,
  ⟨2014, 3, 30, 2, 0⟩, ⟨2014, 10, 26, 2, 0⟩, ⟨2015, 3, 29, 2, 0⟩, ⟨2015, 10, 25, 2, 0⟩, ⟨2016, 3, 27, 2, 0⟩, ⟨2016, 10, 30, 2, 0⟩,
  ⟨2017, 3, 26, 2, 0⟩, ⟨2017, 10, 29, 2, 0⟩, ⟨2018, 3, 25, 2, 0⟩, ⟨2018, 10, 28, 2, 0⟩, ⟨2019, 3, 31, 2, 0⟩, ⟨2019, 10, 27, 2, 0⟩,
  ⟨2020, 3, 29, 2, 0⟩, ⟨2020, 10, 25, 2, 0⟩, ⟨2021, 3, 28, 2, 0⟩, ⟨2021, 10, 31, 2, 0⟩, ⟨2022, 3, 27, 2, 0⟩, ⟨2022, 10, 30, 2, 0⟩,
  ⟨2023, 3, 26, 2, 0⟩, ⟨2023, 10, 29, 2, 0⟩, ⟨2024, 3, 31, 2, 0⟩, ⟨2024, 10, 27, 2, 0⟩, ⟨2025, 3, 30, 2, 0⟩, ⟨2025, 10, 26, 2, 0⟩,
  ⟨2026, 3, 29, 2, 0⟩, ⟨2026, 10, 25, 2, 0⟩, ⟨2027, 3, 28, 2, 0⟩, ⟨2027, 10, 31, 2, 0⟩, ⟨2028, 3, 26, 2, 0⟩, ⟨2028, 10, 29, 2, 0⟩,
  ⟨2029, 3, 25, 2, 0⟩, ⟨2029, 10, 28, 2, 0⟩, ⟨2030, 3, 31, 2, 0⟩, ⟨2030, 10, 27, 2, 0⟩, ⟨2031, 3, 30, 2, 0⟩, ⟨2031, 10, 26, 2, 0⟩,
  ⟨2032, 3, 28, 2, 0⟩, ⟨2032, 10, 31, 2, 0⟩, ⟨2033, 3, 27, 2, 0⟩, ⟨2033, 10, 30, 2, 0⟩, ⟨2034, 3, 26, 2, 0⟩, ⟨2034, 10, 29, 2, 0⟩,
  ⟨2035, 3, 25, 2, 0⟩, ⟨2035, 10, 28, 2, 0⟩, ⟨2036, 3, 30, 2, 0⟩, ⟨2036, 10, 26, 2, 0⟩, ⟨2037, 3, 29, 2, 0⟩, ⟨2037, 10, 25, 2, 0⟩,
  ⟨2038, 3, 28, 2, 0⟩, ⟨2038, 10, 31, 2, 0⟩, ⟨2039, 3, 27, 2, 0⟩, ⟨2039, 10, 30, 2, 0⟩, ⟨2040, 3, 25, 2, 0⟩, ⟨2040, 10, 28, 2, 0⟩]

/-- `DST_REVERSE_DUBLIN` (`:455-596`) -/
def dublinReverse : List Entry := [
  ⟨1972, 3, 19, 1, 0⟩, ⟨1972, 10, 29, 1, 0⟩, ⟨1973, 3, 18, 1, 0⟩, ⟨1973, 10, 28, 1, 0⟩, ⟨1974, 3, 17, 1, 0⟩, ⟨1974, 10, 27, 1, 0⟩,
  ⟨1975, 3, 16, 1, 0⟩, ⟨1975, 10, 26, 1, 0⟩, ⟨1976, 3, 21, 1, 0⟩, ⟨1976, 10, 24, 1, 0⟩, ⟨1977, 3, 20, 1, 0⟩, ⟨1977, 10, 23, 1, 0⟩,
  ⟨1978, 3, 19, 1, 0⟩, ⟨1978, 10, 29, 1, 0⟩, ⟨1979, 3, 18, 1, 0⟩, ⟨1979, 10, 28, 1, 0⟩, ⟨1980, 3, 16, 1, 0⟩, ⟨1980, 10, 26, 1, 0⟩,
  ⟨1981, 3, 29, 1, 0⟩, ⟨1981, 10, 25, 1, 0⟩, ⟨1982, 3, 28, 1, 0⟩, ⟨1982, 10, 24, 1, 0⟩, ⟨1983, 3, 27, 1, 0⟩, ⟨1983, 10, 23, 1, 0⟩,
  ⟨1984, 3, 25, 1, 0⟩, ⟨1984, 10, 28, 1, 0⟩, ⟨1985, 3, 31, 1, 0⟩, ⟨1985, 10, 27, 1, 0⟩, ⟨1986, 3, 30, 1, 0⟩, ⟨1986, 10, 26, 1, 0⟩,
  ⟨1987, 3, 29, 1, 0⟩, ⟨1987, 10, 25, 1, 0⟩, ⟨1988, 3, 27, 1, 0⟩, ⟨1988, 10, 23, 1, 0⟩, ⟨1989, 3, 26, 1, 0⟩, ⟨1989, 10, 29, 1, 0⟩,
  ⟨1990, 3, 25, 1, 0⟩, ⟨1990, 10, 28, 1, 0⟩, ⟨1991, 3, 31, 1, 0⟩, ⟨1991, 10, 27, 1, 0⟩, ⟨1992, 3, 29, 1, 0⟩, ⟨1992, 10, 25, 1, 0⟩,
  ⟨1993, 3, 28, 1, 0⟩, ⟨1993, 10, 24, 1, 0⟩, ⟨1994, 3, 27, 1, 0⟩, ⟨1994, 10, 23, 1, 0⟩, ⟨1995, 3, 26, 1, 0⟩, ⟨1995, 10, 22, 1, 0⟩,
  ⟨1996, 3, 31, 1, 0⟩, ⟨1996, 10, 27, 1, 0⟩, ⟨1997, 3, 30, 1, 0⟩, ⟨1997, 10, 26, 1, 0⟩, ⟨1998, 3, 29, 1, 0⟩, ⟨1998, 10, 25, 1, 0⟩,
  ⟨1999, 3, 28, 1, 0⟩, ⟨1999, 10, 31, 1, 0⟩, ⟨2000, 3, 26, 1, 0⟩, ⟨2000, 10, 29, 1, 0⟩, ⟨2001, 3, 25, 1, 0⟩, ⟨2001, 10, 28, 1, 0⟩,
  ⟨2002, 3, 31, 1, 0⟩, ⟨2002, 10, 27, 1, 0⟩, ⟨2003, 3, 30, 1, 0⟩, ⟨2003, 10, 26, 1, 0⟩, ⟨2004, 3, 28, 1, 0⟩, ⟨2004, 10, 31, 1, 0⟩,
  ⟨2005, 3, 27, 1, 0⟩, ⟨2005, 10, 30, 1, 0⟩, ⟨2006, 3, 26, 1, 0⟩, ⟨2006, 10, 29, 1, 0⟩, ⟨2007, 3, 25, 1, 0⟩, ⟨2007, 10, 28, 1, 0⟩,
  ⟨2008, 3, 30, 1, 0⟩, ⟨2008, 10, 26, 1, 0⟩, ⟨2009, 3, 29, 1, 0⟩, ⟨2009, 10, 25, 1, 0⟩, ⟨2010, 3, 28, 1, 0⟩, ⟨2010, 10, 31, 1, 0⟩,
  ⟨2011, 3, 27, 1, 0⟩, ⟨2011, 10, 30, 1, 0⟩, ⟨2012, 3, 25, 1, 0⟩, ⟨2012, 10, 28, 1, 0⟩, ⟨2013, 3, 31, 1, 0⟩, ⟨2013, 10, 27, 1, 0⟩,
  ⟨2014, 3, 30, 1, 0⟩, ⟨2014, 10, 26, 1, 0⟩, ⟨2015, 3, 29, 1, 0⟩, ⟨2015, 10, 25, 1, 0⟩, ⟨2016, 3, 27, 1, 0⟩, ⟨2016, 10, 30, 1, 0⟩,
  ⟨2017, 3, 26, 1, 0⟩, ⟨2017, 10, 29, 1, 0⟩, ⟨2018, 3, 25, 1, 0⟩, ⟨2018, 10, 28, 1, 0⟩, ⟨2019, 3, 31, 1, 0⟩, ⟨2019, 10, 27, 1, 0⟩,
  ⟨2020, 3, 29, 1, 0⟩, ⟨2020, 10, 25, 1, 0⟩, ⟨2021, 3, 28, 1, 0⟩, ⟨2021, 10, 31, 1, 0⟩, ⟨2022, 3, 27, 1, 0⟩, ⟨2022, 10, 30, 1, 0⟩,
  ⟨2023, 3, 26, 1, 0⟩, ⟨2023, 10, 29, 1, 0⟩, ⟨2024, 3, 31, 1, 0⟩, ⟨2024, 10, 27, 1, 0⟩, ⟨2025, 3, 30, 1, 0⟩, ⟨2025, 10, 26, 1, 0⟩,
  ⟨2026, 3, 29, 1, 0⟩, ⟨2026, 10, 25, 1, 0⟩, ⟨2027, 3, 28, 1, 0⟩, ⟨2027, 10, 31, 1, 0⟩, ⟨2028, 3, 26, 1, 0⟩, ⟨2028, 10, 29, 1, 0⟩,
  ⟨2029, 3, 25, 1, 0⟩, ⟨2029, 10, 28, 1, 0⟩, ⟨2030, 3, 31, 1, 0⟩, ⟨2030, 10, 27, 1, 0⟩, ⟨2031, 3, 30, 1, 0⟩, ⟨2031, 10, 26, 1, 0⟩,
  ⟨2032, 3, 28, 1, 0⟩, ⟨2032, 10, 31, 1, 0⟩, ⟨2033, 3, 27, 1, 0⟩, ⟨2033, 10, 30, 1, 0⟩, ⟨2034, 3, 26, 1, 0⟩, ⟨2034, 10, 29, 1, 0⟩,
  ⟨2035, 3, 25, 1, 0⟩, ⟨2035, 10, 28, 1, 0⟩, ⟨2036, 3, 30, 1, 0⟩, ⟨2036, 10, 26, 1, 0⟩, ⟨2037, 3, 29, 1, 0⟩, ⟨2037, 10, 25, 1, 0⟩,
  ⟨2038, 3, 28, 1, 0⟩, ⟨2038, 10, 31, 1, 0⟩, ⟨2039, 3, 27, 1, 0⟩, ⟨2039, 10, 30, 1, 0⟩, ⟨2040, 3, 25, 1, 0⟩, ⟨2040, 10, 28, 1, 0⟩]

/-- `DST_CUTOFFS_Australia__Sydney` (`:604-755`) -/
def sydneyCutoffs : List Entry := [
  ⟨1969, 10, 26, 2, 0⟩, ⟨1970, 4, 5, 3, 0⟩, ⟨1970, 10, 4, 2, 0⟩, ⟨1971, 4, 4, 3, 0⟩, ⟨1971, 10, 3, 2, 0⟩, ⟨1972, 4, 2, 3, 0⟩,
  ⟨1972, 10, 1, 2, 0⟩, ⟨1973, 4, 1, 3, 0⟩, ⟨1973, 10, 7, 2, 0⟩, ⟨1974, 4, 7, 3, 0⟩, ⟨1974, 10, 6, 2, 0⟩, ⟨1975, 4, 6, 3, 0⟩,
  ⟨1975, 10, 5, 2, 0⟩, ⟨1976, 4, 4, 3, 0⟩, ⟨1976, 10, 3, 2, 0⟩, ⟨1977, 4, 3, 3, 0⟩, ⟨1977, 10, 2, 2, 0⟩, ⟨1978, 4, 2, 3, 0⟩,
  ⟨1978, 10, 1, 2, 0⟩, ⟨1979, 4, 1, 3, 0⟩, ⟨1979, 10, 7, 2, 0⟩, ⟨1980, 4, 6, 3, 0⟩, ⟨1980, 10, 5, 2, 0⟩, ⟨1981, 4, 5, 3, 0⟩,
  ⟨1981, 10, 4, 2, 0⟩, ⟨1982, 4, 4, 3, 0⟩, ⟨1982, 10, 3, 2, 0⟩, ⟨1983, 4, 3, 3, 0⟩, ⟨1983, 10, 2, 2, 0⟩, ⟨1984, 4, 1, 3, 0⟩,
  ⟨1984, 10, 7, 2, 0⟩, ⟨1985, 4, 7, 3, 0⟩, ⟨1985, 10, 6, 2, 0⟩, ⟨1986, 4, 6, 3, 0⟩, ⟨1986, 10, 5, 2, 0⟩, ⟨1987, 4, 5, 3, 0⟩,
  ⟨1987, 10, 4, 2, 0⟩, ⟨1988, 4, 3, 3, 0⟩, ⟨1988, 10, 2, 2, 0⟩, ⟨1989, 4, 2, 3, 0⟩, ⟨1989, 10, 1, 2, 0⟩, ⟨1990, 4, 1, 3, 0⟩,
  ⟨1990, 10, 7, 2, 0⟩, ⟨1991, 4, 7, 3, 0⟩, ⟨1991, 10, 6, 2, 0⟩, ⟨1992, 4, 5, 3, 0⟩, ⟨1992, 10, 4, 2, 0⟩, ⟨1993, 4, 4, 3, 0⟩,
  ⟨1993, 10, 3, 2, 0⟩, ⟨1994, 4, 3, 3, 0⟩, ⟨1994, 10, 2, 2, 0⟩, ⟨1995, 4, 2, 3, 0⟩, ⟨1995, 10, 1, 2, 0⟩, ⟨1996, 4, 7, 3, 0⟩,
  ⟨1996, 10, 6, 2, 0⟩, ⟨1997, 4, 6, 3, 0⟩, ⟨1997, 10, 5, 2, 0⟩, ⟨1998, 4, 5, 3, 0⟩, ⟨1998, 10, 4, 2, 0⟩, ⟨1999, 4, 4, 3, 0⟩,
  ⟨1999, 10, 3, 2, 0⟩, ⟨2000, 4, 2, 3, 0⟩, ⟨2000, 10, 1, 2, 0⟩, ⟨2001, 4, 1, 3, 0⟩, ⟨2001, 10, 7, 2, 0⟩, ⟨2002, 4, 7, 3, 0⟩,
  ⟨2002, 10, 6, 2, 0⟩, ⟨2003, 4, 6, 3, 0⟩, ⟨2003, 10, 5, 2, 0⟩, ⟨2004, 4, 4, 3, 0⟩, ⟨2004, 10, 3, 2, 0⟩, ⟨2005, 4, 3, 3, 0⟩,
  ⟨2005, 10, 2, 2, 0⟩, ⟨2006, 4, 2, 3, 0⟩, ⟨2006, 10, 1, 2, 0⟩, ⟨2007, 4, 1, 3, 0⟩, ⟨2007, 10, 7, 2, 0⟩, ⟨2008, 4, 6, 3, 0⟩,
  ⟨2008, 10, 5, 2, 0⟩, ⟨2009, 4, 5, 3, 0⟩, ⟨2009, 10, 4, 2, 0⟩, ⟨2010, 4, 4, 3, 0⟩, ⟨2010, 10, 3, 2, 0⟩, ⟨2011, 4, 3, 3, 0⟩,
  ⟨2011, 10, 2, 2, 0⟩, ⟨2012, 4, 1, 3, 0⟩, ⟨2012, 10, 7, 2, 0⟩, ⟨2013, 4, 7, 3, 0⟩, ⟨2013, 10, 6, 2, 0⟩, ⟨2014, 4, 6, 3, 0⟩,
  ⟨2014, 10, 5, 2, 0⟩, ⟨2015, 4, 5, 3, 0⟩, ⟨2015, 10, 4, 2, 0⟩, ⟨2016, 4, 3, 3, 0⟩, ⟨2016, 10, 2, 2, 0⟩, ⟨2017, 4, 2, 3, 0⟩,
  ⟨2017, 10, 1, 2, 0⟩, ⟨2018, 4, 1, 3, 0⟩, ⟨2018, 10, 7, 2, 0⟩, ⟨2019, 4, 7, 3, 0⟩, ⟨2019, 10, 6, 2, 0⟩, ⟨2020, 4, 5, 3, 0⟩,
  ⟨2020, 10, 4, 2, 0⟩, ⟨2021, 4, 4, 3, 0⟩, ⟨2021, 10, 3, 2, 0⟩, ⟨2022, 4, 3, 3, 0⟩, ⟨2022, 10, 2, 2, 0⟩, ⟨2023, 4, 2, 3, 0⟩,
  ⟨2023, 10, 1, 2, 0⟩, ⟨2024, 4, 7, 3, 0⟩, ⟨2024, 10, 6, 2, 0⟩, ⟨2025, 4, 6, 3, 0⟩, ⟨2025, 10, 5, 2, 0⟩, ⟨2026, 4, 5, 3, 0⟩,
  ⟨2026, 10, 4, 2, 0⟩, ⟨2027, 4, 4, 3, 0⟩, ⟨2027, 10, 3, 2, 0⟩, ⟨2028, 4, 2, 3, 0⟩, ⟨2028, 10, 1, 2, 0⟩, ⟨2029, 4, 1, 3, 0⟩,
  ⟨2029, 10, 7, 2, 0⟩, ⟨2030, 4, 7, 3, 0⟩, ⟨2030, 10, 6, 2, 0⟩, ⟨2031, 4, 6, 3, 0⟩, ⟨2031, 10, 5, 2, 0⟩, ⟨2032, 4, 4, 3, 0⟩,
  ⟨2032, 10, 3, 2, 0⟩, ⟨2033, 4, 3, 3, 0⟩, ⟨2033, 10, 2, 2, 0⟩, ⟨2034, 4, 2, 3, 0⟩, ⟨2034, 10, 1, 2, 0⟩, ⟨2035, 4, 1, 3, 0⟩,
  ⟨2035, 10, 7, 2, 0⟩, ⟨2036, 4, 6, 3, 0⟩, ⟨2036, 10, 5, 2, 0⟩, ⟨2037, 4, 5, 3, 0⟩, ⟨2037, 10, 4, 2, 0⟩, ⟨2038, 4, 4, 3, 0⟩,
  ⟨2038, 10, 3, 2, 0⟩, ⟨2039, 4, 3, 3, 0⟩, ⟨2039, 10, 2, 2, 0⟩, ⟨2040, 4, 1, 3, 0⟩, ⟨2040, 10, 7, 2, 0⟩]

/-- `DST_REVERSE_Australia__Sydney` (`:757-903`) -/
def sydneyReverse : List Entry := [
  ⟨1969, 10, 25, 16, 0⟩, ⟨1970, 4, 4, 16, 0⟩, ⟨1970, 10, 3, 16, 0⟩, ⟨1971, 4, 3, 16, 0⟩, ⟨1971, 10, 2, 16, 0⟩, ⟨1972, 4, 1, 16, 0⟩,
  ⟨1972, 9, 30, 16, 0⟩, ⟨1973, 3, 31, 16, 0⟩, ⟨1973, 10, 6, 16, 0⟩, ⟨1974, 4, 6, 16, 0⟩, ⟨1974, 10, 5, 16, 0⟩, ⟨1975, 4, 5, 16, 0⟩,
  ⟨1975, 10, 4, 16, 0⟩, ⟨1976, 4, 3, 16, 0⟩, ⟨1976, 10, 2, 16, 0⟩, ⟨1977, 4, 2, 16, 0⟩, ⟨1977, 10, 1, 16, 0⟩, ⟨1978, 4, 1, 16, 0⟩,
  ⟨1978, 9, 30, 16, 0⟩, ⟨1979, 3, 31, 16, 0⟩, ⟨1979, 10, 6, 16, 0⟩, ⟨1980, 4, 5, 16, 0⟩, ⟨1980, 10, 4, 16, 0⟩, ⟨1981, 4, 4, 16, 0⟩,
  ⟨1981, 10, 3, 16, 0⟩, ⟨1982, 4, 3, 16, 0⟩, ⟨1982, 10, 2, 16, 0⟩, ⟨1983, 4, 2, 16, 0⟩, ⟨1983, 10, 1, 16, 0⟩, ⟨1984, 3, 31, 16, 0⟩,
  ⟨1984, 10, 6, 16, 0⟩, ⟨1985, 4, 6, 16, 0⟩, ⟨1985, 10, 5, 16, 0⟩, ⟨1986, 4, 5, 16, 0⟩, ⟨1986, 10, 4, 16, 0⟩, ⟨1987, 4, 4, 16, 0⟩,
  ⟨1987, 10, 3, 16, 0⟩, ⟨1988, 4, 2, 16, 0⟩, ⟨1988, 10, 1, 16, 0⟩, ⟨1989, 4, 1, 16, 0⟩, ⟨1989, 9, 30, 16, 0⟩, ⟨1990, 3, 31, 16, 0⟩,
  ⟨1990, 10, 6, 16, 0⟩, ⟨1991, 4, 6, 16, 0⟩, ⟨1991, 10, 5, 16, 0⟩, ⟨1992, 4, 4, 16, 0⟩, ⟨1992, 10, 3, 16, 0⟩, ⟨1993, 4, 3, 16, 0⟩,
  ⟨1993, 10, 2, 16, 0⟩, ⟨1994, 4, 2, 16, 0⟩, ⟨1994, 10, 1, 16, 0⟩, ⟨1995, 4, 1, 16, 0⟩, ⟨1995, 9, 30, 16, 0⟩, ⟨1996, 4, 6, 16, 0⟩,
  ⟨1996, 10, 5, 16, 0⟩, ⟨1997, 4, 5, 16, 0⟩, ⟨1997, 10, 4, 16, 0⟩, ⟨1998, 4, 4, 16, 0⟩, ⟨1998, 10, 3, 16, 0⟩, ⟨1999, 4, 3, 16, 0⟩,
  ⟨1999, 10, 2, 16, 0⟩, ⟨2000, 4, 1, 16, 0⟩, ⟨2000, 9, 30, 16, 0⟩, ⟨2001, 3, 31, 16, 0⟩, ⟨2001, 10, 6, 16, 0⟩, ⟨2002, 4, 6, 16, 0⟩,
  ⟨2002, 10, 5, 16, 0⟩, ⟨2003, 4, 5, 16, 0⟩, ⟨2003, 10, 4, 16, 0⟩, ⟨2004, 4, 3, 16, 0⟩, ⟨2004, 10, 2, 16, 0⟩, ⟨2005, 4, 2, 16, 0⟩,
  ⟨2005, 10, 1, 16, 0⟩, ⟨2006, 4, 1, 16, 0⟩, ⟨2006, 9, 30, 16, 0⟩, ⟨2007, 3, 31, 16, 0⟩, ⟨2007, 10, 6, 16, 0⟩, ⟨2008, 4, 5, 16, 0⟩,
  ⟨2008, 10, 4, 16, 0⟩, ⟨2009, 4, 4, 16, 0⟩, ⟨2009, 10, 3, 16, 0⟩, ⟨2010, 4, 3, 16, 0⟩, ⟨2010, 10, 2, 16, 0⟩, ⟨2011, 4, 2, 16, 0⟩,
  ⟨2011, 10, 1, 16, 0⟩, ⟨2012, 3, 31, 16, 0⟩, ⟨2012, 10, 6, 16, 0⟩, ⟨2013, 4, 6, 16, 0⟩, ⟨2013, 10, 5, 16, 0⟩, ⟨2014, 4, 5, 16, 0⟩,
  ⟨2014, 10, 4, 16, 0⟩, ⟨2015, 4, 4, 16, 0⟩, ⟨2015, 10, 3, 16, 0⟩, ⟨2016, 4, 2, 16, 0⟩, ⟨2016, 10, 1, 16, 0⟩, ⟨2017, 4, 1, 16, 0⟩,
  ⟨2017, 9, 30, 16, 0⟩, ⟨2018, 3, 31, 16, 0⟩, ⟨2018, 10, 6, 16, 0⟩, ⟨2019, 4, 6, 16, 0⟩, ⟨2019, 10, 5, 16, 0⟩, ⟨2020, 4, 4, 16, 0⟩,
  ⟨2020, 10, 3, 16, 0⟩, ⟨2021, 4, 3, 16, 0⟩, ⟨2021, 10, 2, 16, 0⟩, ⟨2022, 4, 2, 16, 0⟩, ⟨2022, 10, 1, 16, 0⟩, ⟨2023, 4, 1, 16, 0⟩,
  ⟨2023, 9, 30, 16, 0⟩, ⟨2024, 4, 6, 16, 0⟩, ⟨2024, 10, 5, 16, 0⟩, ⟨2025, 4, 5, 16, 0⟩, ⟨2025, 10, 4, 16, 0⟩, ⟨2026, 4, 4, 16, 0⟩,
  ⟨2026, 10, 3, 16, 0⟩, ⟨2027, 4, 3, 16, 0⟩, ⟨2027, 10, 2, 16, 0⟩, ⟨2028, 4, 1, 16, 0⟩, ⟨2028, 9, 30, 16, 0⟩, ⟨2029, 3, 31, 16, 0⟩,
  ⟨2029, 10, 6, 16, 0⟩, ⟨2030, 4, 6, 16, 0⟩, ⟨2030, 10, 5, 16, 0⟩, ⟨2031, 4, 5, 16, 0⟩, ⟨2031, 10, 4, 16, 0⟩, ⟨2032, 4, 3, 16, 0⟩,
  ⟨2032, 10, 2, 16, 0⟩, ⟨2033, 4, 2, 16, 0⟩, ⟨2033, 10, 1, 16, 0⟩, ⟨2034, 4, 1, 16, 0⟩, ⟨2034, 9, 30, 16, 0⟩, ⟨2035, 3, 31, 16, 0⟩,
  ⟨2035, 10, 6, 16, 0⟩, ⟨2036, 4, 5, 16, 0⟩, ⟨2036, 10, 4, 16, 0⟩, ⟨2037, 4, 4, 16, 0⟩, ⟨2037, 10, 3, 16, 0⟩, ⟨2038, 4, 3, 16, 0⟩,
  ⟨2038, 10, 2, 16, 0⟩, ⟨2039, 4, 2, 16, 0⟩, ⟨2039, 10, 1, 16, 0⟩, ⟨2040, 3, 31, 16, 0⟩, ⟨2040, 10, 6, 16, 0⟩]

/-- `DST_CUTOFFS_Asia__Hong_Kong` (`:915-934`) -/
def hongKongCutoffs : List Entry := [
  ⟨1970, 4, 19, 3, 30⟩, ⟨1970, 10, 18, 3, 30⟩, ⟨1971, 4, 18, 3, 30⟩, ⟨1971, 10, 17, 3, 30⟩, ⟨1972, 4, 16, 3, 30⟩, ⟨1972, 10, 22, 3, 30⟩,
  ⟨1973, 4, 22, 3, 30⟩, ⟨1973, 10, 21, 3, 30⟩, ⟨1973, 12, 30, 3, 30⟩, ⟨1974, 10, 20, 3, 30⟩, ⟨1975, 4, 20, 3, 30⟩, ⟨1975, 10, 19, 3, 30⟩,
  ⟨1976, 4, 18, 3, 30⟩, ⟨1976, 10, 17, 3, 30⟩, ⟨1979, 5, 13, 3, 30⟩, ⟨1979, 10, 21, 3, 30⟩]

/-- `DST_REVERSE_Asia__Hong_Kong` (`:936-955`) -/
def hongKongReverse : List Entry := [
  ⟨1970, 4, 18, 19, 30⟩, ⟨1970, 10, 17, 18, 30⟩, ⟨1971, 4, 17, 19, 30⟩, ⟨1971, 10, 16, 18, 30⟩, ⟨1972, 4, 15, 19, 30⟩, ⟨1972, 10, 21, 18, 30⟩,
  ⟨1973, 4, 21, 19, 30⟩, ⟨1973, 10, 20, 18, 30⟩, ⟨1973, 12, 29, 19, 30⟩, ⟨1974, 10, 19, 18, 30⟩, ⟨1975, 4, 19, 19, 30⟩, ⟨1975, 10, 18, 18, 30⟩,
  ⟨1976, 4, 17, 19, 30⟩, ⟨1976, 10, 16, 18, 30⟩, ⟨1979, 5, 12, 19, 30⟩, ⟨1979, 10, 20, 18, 30⟩]

/-- `DST_CUTOFFS_Asia__Seoul` (`:967-974`) -/
def seoulCutoffs : List Entry := [
  ⟨1987, 5, 10, 2, 0⟩, ⟨1987, 10, 11, 3, 0⟩, ⟨1988, 5, 8, 2, 0⟩, ⟨1988, 10, 9, 3, 0⟩]

/-- `DST_REVERSE_Asia__Seoul` (`:976-983`) -/
def seoulReverse : List Entry := [
  ⟨1987, 5, 9, 17, 0⟩, ⟨1987, 10, 10, 17, 0⟩, ⟨1988, 5, 7, 17, 0⟩, ⟨1988, 10, 8, 17, 0⟩]

end Verif.Tz
