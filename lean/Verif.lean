import Verif.Fill.Props
import Verif.Cum.Props
import Verif.Merge.Columns
import Verif.Merge2.Lookup
import Verif.Str.Cat
import Verif.Asof.Reject
import Verif.Asof.Schedule
import Verif.Items.Props
import Verif.Items.CopyProps
import Verif.Struct.Edit
import Verif.GbNumba.Props
import Verif.GbNumba.PackedProps
import Verif.SortCache.Sorted
import Verif.Cat.StackMap
import Verif.Hstack.Props
import Verif.Quantile.Props
import Verif.Calendar.Props
import Verif.Tz.NanoProps
import Verif.Grp.Shrink
import Verif.AsofDs.Props
import Verif.AsofDs.Tolerance
import Verif.Bin.Props
import Verif.Accum.Props
import Verif.Member.Props
import Verif.Dup.Drop
import Verif.Idx.SetProps
import Verif.Shape.Ref
import Verif.Make.Stacked
import Verif.Trim.Props
import Verif.Foot.Props
import Verif.Equal.Exact
import Verif.DateOps.Compare
import Verif.DateOps.Range
import Verif.DateOps.Ints
import Verif.Cols.Inplace
import Verif.Reduce.Transpose
import Verif.Arr.Props
import Verif.Arr.Count
import Verif.CatOps.Compare
import Verif.CatOps.Props
import Verif.CatOps.Regroup
import Verif.CatOps.Enum
import Verif.OldMerge.Props
import Verif.Sds.Props
import Verif.PDs.Props
import Verif.AccTab.Props
import Verif.OldAsof.Props
import Verif.OldAsof.Examples
import Verif.TimeCut.Props
import Verif.TimeCut.Labels
import Verif.TimeCut.Resample
import Verif.TimeCut.Examples
import Verif.GbCalc.Spec
import Verif.GbCalc.Model
import Verif.GbCalc.Names
import Verif.GbCalc.Props
import Verif.GbCalc.Result
import Verif.GbCalc.Args
import Verif.GbCalc.Quant
import Verif.GbCalc.Examples
import Verif.MSet.Spec
import Verif.MSet.Model
import Verif.MSet.Dict
import Verif.MSet.Rows
import Verif.MSet.Index
import Verif.MSet.Display
import Verif.MSet.FlatH
import Verif.MSet.FlatV
import Verif.MSet.Examples
import Verif.CatNew.Examples
import Verif.NpOps.Spec
import Verif.NpOps.Model
import Verif.NpOps.Types
import Verif.NpOps.Where
import Verif.NpOps.Unique
import Verif.NpOps.Maps
import Verif.NpOps.Masks
import Verif.NpOps.Cat2
import Verif.Arrow.Spec
import Verif.Arrow.Model
import Verif.Arrow.Numbers
import Verif.Arrow.Text
import Verif.Arrow.Dicts
import Verif.Arrow.Mapped
import Verif.Arrow.Times
import Verif.Arrow.Tables
import Verif.Pandas.Spec
import Verif.Pandas.Model
import Verif.Pandas.Numbers
import Verif.Pandas.Text
import Verif.Pandas.Cats
import Verif.Pandas.Times
import Verif.Pandas.Tables
import Verif.NanoObj.Spec
import Verif.NanoObj.Model
import Verif.NanoObj.Zones
import Verif.NanoObj.Results
import Verif.NanoObj.Scalars
import Verif.NanoObj.Start
import Verif.DsOps.Spec
import Verif.DsOps.Model
import Verif.DsOps.Assign
import Verif.DsOps.Objects
import Verif.DsOps.Rows
import Verif.DsOps.Funcs
import Verif.Ufunc.Spec
import Verif.Ufunc.Model
import Verif.Ufunc.Binary
import Verif.Ufunc.Reduce
import Verif.SdsStack.Filter
import Verif.SdsStack.Spec
import Verif.SdsStack.Model
import Verif.SdsStack.Items
import Verif.SdsStack.Rows
import Verif.SdsStack.Refused
import Verif.SdsStack.Examples
import Verif.TimeShow.Spec
import Verif.TimeShow.Model
import Verif.TimeShow.Float
import Verif.TimeShow.Clock
import Verif.TimeShow.Strf
import Verif.TimeShow.Short
import Verif.Flatten.Model
import Verif.Flatten.Spec
import Verif.Flatten.Safe
import Verif.Flatten.Step
import Verif.Flatten.Result
import Verif.Flatten.Retry
import Verif.Ema.Model
import Verif.Ema.Spec
import Verif.Ema.Props
import Verif.StructCmp.Model
import Verif.StructCmp.Spec
import Verif.StructCmp.Props
import Verif.Csv.Model
import Verif.Csv.Spec
import Verif.Csv.Props
import Verif.StructEq.Spec
import Verif.StructEq.Model
import Verif.StructEq.Props
import Verif.NpIo.Model
import Verif.NpIo.Props
import Verif.StructStack.Spec
import Verif.StructStack.Model
import Verif.StructStack.Props
import Verif.Take2.Props
import Verif.Conv.Matrix
import Verif.Conv.KeyCol
import Verif.MemberCat.Props
import Verif.CatSds.Spec
import Verif.CatSds.Model
import Verif.CatSds.Lemmas
import Verif.CatSds.Props
import Verif.MergeKeys.Spec
import Verif.MergeKeys.Model
import Verif.MergeKeys.Props
import Verif.SdsPath.Spec
import Verif.SdsPath.Model
import Verif.SdsPath.Props
import Verif.Regex.Spec
import Verif.Regex.Call
import Verif.Regex.CallProps
import Verif.Regex.Model
import Verif.Regex.Props
import Verif.CatAlign.Model
import Verif.CatAlign.Props
import Verif.PdCat.Model
import Verif.PdCat.Props
import Verif.StructTree.Spec
import Verif.StructTree.Model
import Verif.StructTree.Search
import Verif.StructTree.Props
import Verif.Show.Spec
import Verif.Show.Model
import Verif.Show.Rows
import Verif.Show.Fit
import Verif.Show.Lines
import Verif.Show.Heads
import Verif.ApplyOut.Spec
import Verif.ApplyOut.Model
import Verif.ApplyOut.Props
import Verif.ApplyOut.Outs
import Verif.SdsLoad.Spec
import Verif.SdsLoad.Model
import Verif.SdsLoad.Lemmas
import Verif.SdsLoad.Props
import Verif.GbKeys.Spec
import Verif.GbKeys.Model
import Verif.GbKeys.Props
import Verif.Schema.Props
import Verif.Sizes.Props
import Verif.DsNew.Props
import Verif.Matlab.Props
import Verif.AccBad.Props
import Verif.H5.Props
import Verif.RecArr.Props
import Verif.ColPop.Props
import Verif.SpanRed.Props
import Verif.FillInv.Props
import Verif.Pickle.Props
import Verif.Stats.Props
import Verif.MatDate.Props
import Verif.Outlier.Props
import Verif.GrpFill.Props
