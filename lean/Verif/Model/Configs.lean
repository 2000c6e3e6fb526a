import Verif.Model.Config

/-!
# The configuration files of the repository

One definition per TOML file in `src/configs` and `artifact/configs`, with decimal fractions read as the nearest `f64`.
-/

namespace Mastic

/-- `src/configs/attribute-based-metrics.toml:1-12` -/
def fileAbm : FileConfig where
  dataBits := some 8
  histBuckets := 4
  addBatch := 1000
  queryBatch := 100000
  uniqueBuckets := 1000
  mode := .attributeBasedMetrics 10
  zipfExponent := F64.round (103 / 100)
  server0 := "0.0.0.0:8000"
  server1 := "0.0.0.0:8001"

/-- `src/configs/plain-metrics.toml:1-11` -/
def filePm : FileConfig where
  dataBits := none
  histBuckets := 4
  addBatch := 1000
  queryBatch := 100000
  uniqueBuckets := 1000
  mode := .plainMetrics
  zipfExponent := F64.round (103 / 100)
  server0 := "0.0.0.0:8000"
  server1 := "0.0.0.0:8001"

/-- `src/configs/weighted-heavy-hitters.toml:1-12` -/
def fileWhh : FileConfig where
  dataBits := some 8
  histBuckets := 4
  addBatch := 1000
  queryBatch := 100000
  uniqueBuckets := 1000
  mode := .weightedHeavyHitters (F64.round (1 / 100))
  zipfExponent := F64.round (103 / 100)
  server0 := "0.0.0.0:8000"
  server1 := "0.0.0.0:8001"

/-- `artifact/configs/figure-3/Mastic-m=1,n=128.toml:1-14` -/
def fig3Masticm1n128 : FileConfig where
  dataBits := some 128
  histBuckets := 1
  addBatch := 100
  queryBatch := 100000
  uniqueBuckets := 1000
  mode := .weightedHeavyHitters (F64.round (1 / 100))
  zipfExponent := F64.round (103 / 100)
  server0 := "0.0.0.0:8000"
  server1 := "0.0.0.0:8001"

/-- `artifact/configs/figure-3/Mastic-m=1,n=256.toml:1-14` -/
def fig3Masticm1n256 : FileConfig where
  dataBits := some 256
  histBuckets := 1
  addBatch := 100
  queryBatch := 100000
  uniqueBuckets := 1000
  mode := .weightedHeavyHitters (F64.round (1 / 100))
  zipfExponent := F64.round (103 / 100)
  server0 := "0.0.0.0:8000"
  server1 := "0.0.0.0:8001"

/-- `artifact/configs/figure-3/Mastic-m=1,n=64.toml:1-14` -/
def fig3Masticm1n64 : FileConfig where
  dataBits := some 64
  histBuckets := 1
  addBatch := 100
  queryBatch := 100000
  uniqueBuckets := 1000
  mode := .weightedHeavyHitters (F64.round (1 / 100))
  zipfExponent := F64.round (103 / 100)
  server0 := "0.0.0.0:8000"
  server1 := "0.0.0.0:8001"

/-- `artifact/configs/figure-3/Mastic-m=10,n=128.toml:1-12` -/
def fig3Masticm10n128 : FileConfig where
  dataBits := some 128
  histBuckets := 9
  addBatch := 50
  queryBatch := 100000
  uniqueBuckets := 1000
  mode := .weightedHeavyHitters (F64.round (1 / 100))
  zipfExponent := F64.round (103 / 100)
  server0 := "0.0.0.0:8000"
  server1 := "0.0.0.0:8001"

/-- `artifact/configs/figure-3/Mastic-m=10,n=256.toml:1-12` -/
def fig3Masticm10n256 : FileConfig where
  dataBits := some 256
  histBuckets := 9
  addBatch := 50
  queryBatch := 100000
  uniqueBuckets := 1000
  mode := .weightedHeavyHitters (F64.round (1 / 100))
  zipfExponent := F64.round (103 / 100)
  server0 := "0.0.0.0:8000"
  server1 := "0.0.0.0:8001"

/-- `artifact/configs/figure-3/Mastic-m=10,n=64.toml:1-12` -/
def fig3Masticm10n64 : FileConfig where
  dataBits := some 64
  histBuckets := 9
  addBatch := 50
  queryBatch := 100000
  uniqueBuckets := 1000
  mode := .weightedHeavyHitters (F64.round (1 / 100))
  zipfExponent := F64.round (103 / 100)
  server0 := "0.0.0.0:8000"
  server1 := "0.0.0.0:8001"

/-- `artifact/configs/figure-3/Mastic-m=30,n=128.toml:1-12` -/
def fig3Masticm30n128 : FileConfig where
  dataBits := some 128
  histBuckets := 29
  addBatch := 50
  queryBatch := 100000
  uniqueBuckets := 1000
  mode := .weightedHeavyHitters (F64.round (1 / 100))
  zipfExponent := F64.round (103 / 100)
  server0 := "0.0.0.0:8000"
  server1 := "0.0.0.0:8001"

/-- `artifact/configs/figure-3/Mastic-m=30,n=256.toml:1-12` -/
def fig3Masticm30n256 : FileConfig where
  dataBits := some 256
  histBuckets := 29
  addBatch := 50
  queryBatch := 100000
  uniqueBuckets := 1000
  mode := .weightedHeavyHitters (F64.round (1 / 100))
  zipfExponent := F64.round (103 / 100)
  server0 := "0.0.0.0:8000"
  server1 := "0.0.0.0:8001"

/-- `artifact/configs/figure-3/Mastic-m=30,n=64.toml:1-12` -/
def fig3Masticm30n64 : FileConfig where
  dataBits := some 64
  histBuckets := 29
  addBatch := 50
  queryBatch := 100000
  uniqueBuckets := 1000
  mode := .weightedHeavyHitters (F64.round (1 / 100))
  zipfExponent := F64.round (103 / 100)
  server0 := "0.0.0.0:8000"
  server1 := "0.0.0.0:8001"

/-- `artifact/configs/figure-3/Mastic-m=5,n=128.toml:1-12` -/
def fig3Masticm5n128 : FileConfig where
  dataBits := some 128
  histBuckets := 4
  addBatch := 100
  queryBatch := 100000
  uniqueBuckets := 1000
  mode := .weightedHeavyHitters (F64.round (1 / 100))
  zipfExponent := F64.round (103 / 100)
  server0 := "0.0.0.0:8000"
  server1 := "0.0.0.0:8001"

/-- `artifact/configs/figure-3/Mastic-m=5,n=256.toml:1-12` -/
def fig3Masticm5n256 : FileConfig where
  dataBits := some 256
  histBuckets := 4
  addBatch := 100
  queryBatch := 100000
  uniqueBuckets := 1000
  mode := .weightedHeavyHitters (F64.round (1 / 100))
  zipfExponent := F64.round (103 / 100)
  server0 := "0.0.0.0:8000"
  server1 := "0.0.0.0:8001"

/-- `artifact/configs/figure-3/Mastic-m=5,n=64.toml:1-12` -/
def fig3Masticm5n64 : FileConfig where
  dataBits := some 64
  histBuckets := 4
  addBatch := 100
  queryBatch := 100000
  uniqueBuckets := 1000
  mode := .weightedHeavyHitters (F64.round (1 / 100))
  zipfExponent := F64.round (103 / 100)
  server0 := "0.0.0.0:8000"
  server1 := "0.0.0.0:8001"

/-- `artifact/configs/figure-4/Mastic-m=1.toml:1-14` -/
def fig4Masticm1 : FileConfig where
  dataBits := some 256
  histBuckets := 1
  addBatch := 100
  queryBatch := 100000
  uniqueBuckets := 1000
  mode := .weightedHeavyHitters (F64.round (1 / 100))
  zipfExponent := F64.round (103 / 100)
  server0 := "0.0.0.0:8000"
  server1 := "0.0.0.0:8001"

/-- `artifact/configs/figure-4/Mastic-m=10.toml:1-12` -/
def fig4Masticm10 : FileConfig where
  dataBits := some 256
  histBuckets := 9
  addBatch := 100
  queryBatch := 100000
  uniqueBuckets := 1000
  mode := .weightedHeavyHitters (F64.round (1 / 100))
  zipfExponent := F64.round (103 / 100)
  server0 := "0.0.0.0:8000"
  server1 := "0.0.0.0:8001"

/-- `artifact/configs/figure-4/Mastic-m=30.toml:1-12` -/
def fig4Masticm30 : FileConfig where
  dataBits := some 256
  histBuckets := 29
  addBatch := 50
  queryBatch := 10000
  uniqueBuckets := 1000
  mode := .weightedHeavyHitters (F64.round (1 / 100))
  zipfExponent := F64.round (103 / 100)
  server0 := "0.0.0.0:8000"
  server1 := "0.0.0.0:8001"

/-- `artifact/configs/figure-4/Mastic-m=5.toml:1-12` -/
def fig4Masticm5 : FileConfig where
  dataBits := some 256
  histBuckets := 4
  addBatch := 100
  queryBatch := 100000
  uniqueBuckets := 1000
  mode := .weightedHeavyHitters (F64.round (1 / 100))
  zipfExponent := F64.round (103 / 100)
  server0 := "0.0.0.0:8000"
  server1 := "0.0.0.0:8001"

/-- `artifact/configs/figure-5/Mastic-m=1.toml:1-14` -/
def fig5Masticm1 : FileConfig where
  dataBits := some 256
  histBuckets := 1
  addBatch := 100
  queryBatch := 100000
  uniqueBuckets := 1000
  mode := .weightedHeavyHitters (F64.round (1 / 100))
  zipfExponent := F64.round (103 / 100)
  server0 := "0.0.0.0:8000"
  server1 := "0.0.0.0:8001"

/-- `artifact/configs/figure-6/Mastic-A=1.toml:1-12` -/
def fig6MasticA1 : FileConfig where
  dataBits := some 1
  histBuckets := 100
  addBatch := 500
  queryBatch := 10000
  uniqueBuckets := 1000
  mode := .attributeBasedMetrics 1
  zipfExponent := F64.round (103 / 100)
  server0 := "0.0.0.0:8000"
  server1 := "0.0.0.0:8001"

/-- `artifact/configs/figure-6/Mastic-A=1024.toml:1-12` -/
def fig6MasticA1024 : FileConfig where
  dataBits := some 10
  histBuckets := 100
  addBatch := 50
  queryBatch := 10000
  uniqueBuckets := 1000
  mode := .attributeBasedMetrics 1024
  zipfExponent := F64.round (103 / 100)
  server0 := "0.0.0.0:8000"
  server1 := "0.0.0.0:8001"

/-- `artifact/configs/figure-6/Mastic-A=128.toml:1-12` -/
def fig6MasticA128 : FileConfig where
  dataBits := some 7
  histBuckets := 100
  addBatch := 100
  queryBatch := 100000
  uniqueBuckets := 1000
  mode := .attributeBasedMetrics 128
  zipfExponent := F64.round (103 / 100)
  server0 := "0.0.0.0:8000"
  server1 := "0.0.0.0:8001"

/-- `artifact/configs/figure-6/Prio-A=1.toml:1-11` -/
def fig6PrioA1 : FileConfig where
  dataBits := none
  histBuckets := 100
  addBatch := 1000
  queryBatch := 100000
  uniqueBuckets := 1000
  mode := .plainMetrics
  zipfExponent := F64.round (103 / 100)
  server0 := "0.0.0.0:8000"
  server1 := "0.0.0.0:8001"

/-- `artifact/configs/figure-6/Prio-A=1024.toml:1-11` -/
def fig6PrioA1024 : FileConfig where
  dataBits := none
  histBuckets := 102400
  addBatch := 5
  queryBatch := 10000
  uniqueBuckets := 1000
  mode := .plainMetrics
  zipfExponent := F64.round (103 / 100)
  server0 := "0.0.0.0:8000"
  server1 := "0.0.0.0:8001"

/-- `artifact/configs/figure-6/Prio-A=128.toml:1-11` -/
def fig6PrioA128 : FileConfig where
  dataBits := none
  histBuckets := 12800
  addBatch := 10
  queryBatch := 10000
  uniqueBuckets := 1000
  mode := .plainMetrics
  zipfExponent := F64.round (103 / 100)
  server0 := "0.0.0.0:8000"
  server1 := "0.0.0.0:8001"

/-- The weighted-heavy-hitters files of `artifact/configs`. -/
def artifactWhh : List FileConfig := [
  fig3Masticm1n128, fig3Masticm1n256, fig3Masticm1n64, fig3Masticm10n128, fig3Masticm10n256, fig3Masticm10n64,
  fig3Masticm30n128, fig3Masticm30n256, fig3Masticm30n64, fig3Masticm5n128, fig3Masticm5n256, fig3Masticm5n64,
  fig4Masticm1, fig4Masticm10, fig4Masticm30, fig4Masticm5, fig5Masticm1]

/-- All files. -/
def allFiles : List FileConfig := [
  fileAbm, filePm, fileWhh, fig3Masticm1n128, fig3Masticm1n256, fig3Masticm1n64, fig3Masticm10n128,
  fig3Masticm10n256, fig3Masticm10n64, fig3Masticm30n128, fig3Masticm30n256, fig3Masticm30n64,
  fig3Masticm5n128, fig3Masticm5n256, fig3Masticm5n64, fig4Masticm1, fig4Masticm10, fig4Masticm30,
  fig4Masticm5, fig5Masticm1, fig6MasticA1, fig6MasticA1024, fig6MasticA128, fig6PrioA1, fig6PrioA1024,
  fig6PrioA128]

end Mastic
