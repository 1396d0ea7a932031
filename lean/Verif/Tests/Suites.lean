import Verif.Tests.Harness
/-
Generated by tools/tests.py from /repo/test; do not edit.
-/
namespace Verif.Tests

-- test/cumulative/moment_suite.cpp:25 mean_double_suite::test_ctor
#guard failures cumulativeMoment [
  .eq "size" [] (0.0)] == []

-- test/cumulative/moment_suite.cpp:31 mean_double_suite::test_same
#guard failures cumulativeMoment [
  .push [1.0],
  .eq "size" [] (1.0),
  .eq "mean" [] (1.0),
  .push [1.0],
  .eq "size" [] (2.0),
  .eq "mean" [] (1.0),
  .eq "unbiased_mean" [] (2.0),
  .push [1.0],
  .eq "size" [] (3.0),
  .eq "mean" [] (1.0),
  .eq "unbiased_mean" [] (1.5)] == []

-- test/cumulative/moment_suite.cpp:48 mean_double_suite::test_linear_increase
#guard failures cumulativeMoment [
  .push [1.0],
  .eq "size" [] (1.0),
  .eq "mean" [] (1.0),
  .push [3.0],
  .eq "size" [] (2.0),
  .eq "mean" [] (2.0),
  .eq "unbiased_mean" [] (4.0),
  .push [5.0],
  .eq "size" [] (3.0),
  .eq "mean" [] (3.0),
  .eq "unbiased_mean" [] (4.5)] == []

-- test/cumulative/moment_suite.cpp:65 mean_double_suite::test_linear_decrease
#guard failures cumulativeMoment [
  .push [5.0],
  .eq "size" [] (1.0),
  .eq "mean" [] (5.0),
  .push [3.0],
  .eq "size" [] (2.0),
  .eq "mean" [] (4.0),
  .eq "unbiased_mean" [] (8.0),
  .push [1.0],
  .eq "size" [] (3.0),
  .eq "mean" [] (3.0),
  .eq "unbiased_mean" [] (4.5)] == []

-- test/cumulative/moment_suite.cpp:82 mean_double_suite::test_exponential_increase
#guard failures cumulativeMoment [
  .push [1.0],
  .eq "mean" [] (1.0),
  .push [10.0],
  .close "mean" [] (5.5) 1.0e-05,
  .close "unbiased_mean" [] (11.0) 1.0e-05,
  .push [100.0],
  .close "mean" [] (37.0) 1.0e-05,
  .close "unbiased_mean" [] (55.5) 1.0e-05,
  .push [1000.0],
  .close "mean" [] (277.75) 1.0e-05,
  .close "unbiased_mean" [] (370.3333) 1.0e-05,
  .push [10000.0],
  .close "mean" [] (2222.2) 1.0e-05,
  .close "unbiased_mean" [] (2777.75) 1.0e-05,
  .push [100000.0],
  .close "mean" [] (18518.5) 1.0e-05,
  .close "unbiased_mean" [] (22222.2) 1.0e-05,
  .push [1000000.0],
  .close "mean" [] (158730.0) 1.0e-05,
  .close "unbiased_mean" [] (185185.0) 1.0e-05,
  .push [10000000.0],
  .close "mean" [] (1388890.0) 1.0e-05,
  .close "unbiased_mean" [] (1587300.0) 1.0e-05,
  .push [100000000.0],
  .close "mean" [] (12345700.0) 1.0e-05,
  .close "unbiased_mean" [] (13888900.0) 1.0e-05,
  .push [1000000000.0],
  .close "mean" [] (111111000.0) 1.0e-05,
  .close "unbiased_mean" [] (123456000.0) 1.0e-05] == []

-- test/cumulative/moment_suite.cpp:134 mean_int_suite::test_ctor
#guard failures cumulativeMomentInt [
  .eq "size" [] (0.0)] == []

-- test/cumulative/moment_suite.cpp:140 mean_int_suite::test_same
#guard failures cumulativeMomentInt [
  .push [1.0],
  .eq "size" [] (1.0),
  .eq "mean" [] (1.0),
  .push [1.0],
  .eq "size" [] (2.0),
  .eq "mean" [] (1.0),
  .push [1.0],
  .eq "size" [] (3.0),
  .eq "mean" [] (1.0)] == []

-- test/cumulative/moment_suite.cpp:154 mean_int_suite::test_linear_increase
#guard failures cumulativeMomentInt [
  .push [1.0],
  .eq "size" [] (1.0),
  .eq "mean" [] (1.0),
  .push [3.0],
  .eq "size" [] (2.0),
  .eq "mean" [] (2.0),
  .push [5.0],
  .eq "size" [] (3.0),
  .eq "mean" [] (3.0)] == []

-- test/cumulative/moment_suite.cpp:182 variance_double_suite::test_ctor
#guard failures cumulativeVariance [
  .eq "size" [] (0.0)] == []

-- test/cumulative/moment_suite.cpp:188 variance_double_suite::test_same
#guard failures cumulativeVariance [
  .push [1.0],
  .eq "mean" [] (1.0),
  .eq "variance" [] (0.0),
  .push [1.0],
  .eq "mean" [] (1.0),
  .eq "variance" [] (0.0),
  .eq "unbiased_variance" [] (0.0),
  .push [1.0],
  .eq "mean" [] (1.0),
  .eq "variance" [] (0.0),
  .eq "unbiased_variance" [] (0.0)] == []

-- test/cumulative/moment_suite.cpp:205 variance_double_suite::test_linear_increase
#guard failures cumulativeVariance [
  .push [1.0],
  .eq "mean" [] (1.0),
  .eq "variance" [] (0.0),
  .push [2.0],
  .close "mean" [] (1.5) 1.0e-05,
  .close "variance" [] (0.25) 1.0e-05,
  .close "unbiased_variance" [] (0.5) 1.0e-05,
  .push [3.0],
  .close "mean" [] (2.0) 1.0e-05,
  .close "variance" [] (0.666667) 1.0e-05,
  .close "unbiased_variance" [] (1.0) 1.0e-05,
  .push [4.0],
  .close "mean" [] (2.5) 1.0e-05,
  .close "variance" [] (1.25) 1.0e-05,
  .close "unbiased_variance" [] (1.666667) 1.0e-05,
  .push [5.0],
  .close "mean" [] (3.0) 1.0e-05,
  .close "variance" [] (2.0) 1.0e-05,
  .close "unbiased_variance" [] (2.5) 1.0e-05,
  .push [6.0],
  .close "mean" [] (3.5) 1.0e-05,
  .close "variance" [] (2.91667) 1.0e-05,
  .close "unbiased_variance" [] (3.5) 1.0e-05,
  .push [7.0],
  .close "mean" [] (4.0) 1.0e-05,
  .close "variance" [] (4.0) 1.0e-05,
  .close "unbiased_variance" [] (4.66667) 1.0e-05,
  .push [8.0],
  .close "mean" [] (4.5) 1.0e-05,
  .close "variance" [] (5.25) 1.0e-05,
  .close "unbiased_variance" [] (6.0) 1.0e-05,
  .push [9.0],
  .close "mean" [] (5.0) 1.0e-05,
  .close "variance" [] (6.66667) 1.0e-05,
  .close "unbiased_variance" [] (7.5) 1.0e-05,
  .push [10.0],
  .close "mean" [] (5.5) 1.0e-05,
  .close "variance" [] (8.25) 1.0e-05,
  .close "unbiased_variance" [] (9.16667) 1.0e-05] == []

-- test/cumulative/moment_suite.cpp:251 variance_double_suite::test_exponential_increase
#guard failures cumulativeVariance [
  .push [1.0],
  .eq "mean" [] (1.0),
  .eq "variance" [] (0.0),
  .push [10.0],
  .close "mean" [] (5.5) 1.0e-05,
  .close "variance" [] (20.25) 1.0e-05,
  .close "unbiased_variance" [] (40.5) 1.0e-05,
  .push [100.0],
  .close "mean" [] (37.0) 1.0e-05,
  .close "variance" [] (1998.0) 1.0e-05,
  .close "unbiased_variance" [] (2997.0) 1.0e-05,
  .push [1000.0],
  .close "mean" [] (277.75) 1.0e-05,
  .close "variance" [] (175380.0) 1.0e-05,
  .close "unbiased_variance" [] (233840.0) 1.0e-05,
  .push [10000.0],
  .close "mean" [] (2222.2) 1.0e-05,
  .close "variance" [] (15263800.0) 1.0e-05,
  .close "unbiased_variance" [] (19079800.0) 1.0e-05,
  .push [100000.0],
  .close "mean" [] (18518.5) 1.0e-05,
  .close "variance" [] (1340570000.0) 1.0e-05,
  .close "unbiased_variance" [] (1608680000.0) 1.0e-05,
  .push [1000000.0],
  .close "mean" [] (158730.0) 1.0e-05,
  .close "variance" [] (119105000000.0) 1.0e-05,
  .close "unbiased_variance" [] (138956000000.0) 1.0e-05,
  .push [10000000.0],
  .close "mean" [] (1388890.0) 1.0e-05,
  .close "variance" [] (10697300000000.0) 1.0e-05,
  .close "unbiased_variance" [] (12225400000000.0) 1.0e-05,
  .push [100000000.0],
  .close "mean" [] (12345700.0) 1.0e-05,
  .close "variance" [] (969919000000000.0) 1.0e-05,
  .close "unbiased_variance" [] (1091160000000000.0) 1.0e-05,
  .push [1000000000.0],
  .close "mean" [] (111111000.0) 1.0e-05,
  .close "variance" [] (8.86644e+16) 1.0e-05,
  .close "unbiased_variance" [] (9.8516e+16) 1.0e-05] == []

-- test/cumulative/moment_suite.cpp:297 variance_double_suite::test_scatter
#guard failures cumulativeVariance [
  .push [1.0],
  .eq "mean" [] (1.0),
  .eq "variance" [] (0.0),
  .push [3.0],
  .close "mean" [] (2.0) 1.0e-05,
  .close "variance" [] (1.0) 1.0e-05,
  .push [0.0],
  .close "mean" [] (1.33333) 1.0e-05,
  .close "variance" [] (1.55556) 1.0e-05,
  .push [5.0],
  .close "mean" [] (2.25) 1.0e-05,
  .close "variance" [] (3.6875) 1.0e-05,
  .push [2.0],
  .close "mean" [] (2.2) 1.0e-05,
  .close "variance" [] (2.96) 1.0e-05,
  .push [3.0],
  .close "mean" [] (2.33333) 1.0e-05,
  .close "variance" [] (2.55556) 1.0e-05,
  .push [4.0],
  .close "mean" [] (2.57143) 1.0e-05,
  .close "variance" [] (2.53061) 1.0e-05,
  .push [1.0],
  .close "mean" [] (2.375) 1.0e-05,
  .close "variance" [] (2.48438) 1.0e-05] == []

-- test/cumulative/moment_suite.cpp:351 skewness_double_suite::test_ctor
#guard failures cumulativeSkewness [
  .eq "size" [] (0.0)] == []

-- test/cumulative/moment_suite.cpp:357 skewness_double_suite::test_same
#guard failures cumulativeSkewness [
  .push [1.0],
  .eq "mean" [] (1.0),
  .eq "variance" [] (0.0),
  .eq "skewness" [] (0.0),
  .eq "unbiased_skewness" [] (0.0),
  .push [1.0],
  .eq "mean" [] (1.0),
  .eq "variance" [] (0.0),
  .eq "skewness" [] (0.0),
  .eq "unbiased_skewness" [] (0.0),
  .push [1.0],
  .eq "mean" [] (1.0),
  .eq "variance" [] (0.0),
  .eq "skewness" [] (0.0),
  .eq "unbiased_skewness" [] (0.0)] == []

-- test/cumulative/moment_suite.cpp:377 skewness_double_suite::test_linear_increase
#guard failures cumulativeSkewness [
  .push [1.0],
  .eq "mean" [] (1.0),
  .eq "variance" [] (0.0),
  .eq "skewness" [] (0.0),
  .eq "unbiased_skewness" [] (0.0),
  .push [2.0],
  .close "mean" [] (1.5) 1.0e-05,
  .close "variance" [] (0.25) 1.0e-05,
  .eq "skewness" [] (0.0),
  .eq "skewness" [] (0.0),
  .push [3.0],
  .close "mean" [] (2.0) 1.0e-05,
  .close "variance" [] (0.666667) 1.0e-05,
  .eq "skewness" [] (0.0),
  .eq "unbiased_skewness" [] (0.0),
  .push [4.0],
  .close "mean" [] (2.5) 1.0e-05,
  .close "variance" [] (1.25) 1.0e-05,
  .eq "skewness" [] (0.0),
  .eq "unbiased_skewness" [] (0.0),
  .push [5.0],
  .close "mean" [] (3.0) 1.0e-05,
  .close "variance" [] (2.0) 1.0e-05,
  .eq "skewness" [] (0.0),
  .eq "unbiased_skewness" [] (0.0)] == []

-- test/cumulative/moment_suite.cpp:408 skewness_double_suite::test_exponential_increase
#guard failures cumulativeSkewness [
  .push [1.0],
  .eq "mean" [] (1.0),
  .eq "variance" [] (0.0),
  .eq "skewness" [] (0.0),
  .eq "unbiased_skewness" [] (0.0),
  .push [10.0],
  .close "mean" [] (5.5) 1.0e-05,
  .close "variance" [] (20.25) 1.0e-05,
  .close "skewness" [] (0.0) 1.0e-05,
  .close "unbiased_skewness" [] (0.0) 1.0e-05,
  .push [100.0],
  .close "mean" [] (37.0) 1.0e-05,
  .close "variance" [] (1998.0) 1.0e-05,
  .close "skewness" [] (0.68567) 1.0e-05,
  .close "unbiased_skewness" [] (1.67954) 1.0e-05,
  .push [1000.0],
  .close "mean" [] (277.75) 1.0e-05,
  .close "variance" [] (175380.0) 1.0e-05,
  .close "skewness" [] (1.12582) 1.0e-05,
  .close "unbiased_skewness" [] (1.95) 1.0e-05,
  .push [10000.0],
  .close "mean" [] (2222.2) 1.0e-05,
  .close "variance" [] (15263800.0) 1.0e-05,
  .close "skewness" [] (1.46675) 1.0e-05,
  .close "unbiased_skewness" [] (2.1865) 1.0e-05,
  .push [100000.0],
  .close "mean" [] (18518.5) 1.0e-05,
  .close "variance" [] (1340570000.0) 1.0e-05,
  .close "skewness" [] (1.75227) 1.0e-05,
  .close "unbiased_skewness" [] (2.3994) 1.0e-05,
  .push [1000000.0],
  .close "mean" [] (158730.0) 1.0e-05,
  .close "variance" [] (119105000000.0) 1.0e-05,
  .close "skewness" [] (2.00181) 1.0e-05,
  .close "unbiased_skewness" [] (2.59464) 1.0e-05,
  .push [10000000.0],
  .close "mean" [] (1388900.0) 1.0e-05,
  .close "variance" [] (10697300000000.0) 1.0e-05,
  .close "skewness" [] (2.22579) 1.0e-05,
  .close "unbiased_skewness" [] (2.77605) 1.0e-05,
  .push [100000000.0],
  .close "mean" [] (12345679.0) 1.0e-05,
  .close "variance" [] (969919000000000.0) 1.0e-05,
  .close "skewness" [] (2.43051) 1.0e-05,
  .close "unbiased_skewness" [] (2.9462) 1.0e-05,
  .push [1000000000.0],
  .close "mean" [] (111110000.0) 1.0e-05,
  .close "variance" [] (8.86644e+16) 1.0e-05,
  .close "skewness" [] (2.62009) 1.0e-05,
  .close "unbiased_skewness" [] (3.10704) 1.0e-05] == []

-- test/cumulative/moment_suite.cpp:464 skewness_double_suite::test_left_skew
#guard failures cumulativeSkewness [
  .push [1.0],
  .eq "mean" [] (1.0),
  .eq "variance" [] (0.0),
  .eq "skewness" [] (0.0),
  .eq "unbiased_skewness" [] (0.0),
  .push [2.0],
  .close "mean" [] (1.5) 1.0e-05,
  .close "variance" [] (0.25) 1.0e-05,
  .close "skewness" [] (0.0) 1.0e-05,
  .close "unbiased_skewness" [] (0.0) 1.0e-05,
  .push [5.0],
  .close "mean" [] (2.66667) 1.0e-05,
  .close "variance" [] (2.88889) 1.0e-05,
  .close "skewness" [] (0.528) 1.0e-05,
  .close "unbiased_skewness" [] (1.29334) 1.0e-05,
  .push [15.0],
  .close "mean" [] (5.75) 1.0e-05,
  .close "variance" [] (30.6875) 1.0e-05,
  .close "skewness" [] (0.92814) 1.0e-05,
  .close "unbiased_skewness" [] (1.60758) 1.0e-05] == []

-- test/cumulative/moment_suite.cpp:506 kurtosis_double_suite::test_ctor
#guard failures cumulativeKurtosis [
  .eq "size" [] (0.0)] == []

-- test/cumulative/moment_suite.cpp:512 kurtosis_double_suite::test_same
#guard failures cumulativeKurtosis [
  .push [1.0],
  .eq "mean" [] (1.0),
  .eq "variance" [] (0.0),
  .eq "skewness" [] (0.0),
  .eq "kurtosis" [] (0.0),
  .eq "unbiased_kurtosis" [] (0.0),
  .push [1.0],
  .eq "mean" [] (1.0),
  .eq "variance" [] (0.0),
  .eq "skewness" [] (0.0),
  .eq "kurtosis" [] (0.0),
  .eq "unbiased_kurtosis" [] (0.0),
  .push [1.0],
  .eq "mean" [] (1.0),
  .eq "variance" [] (0.0),
  .eq "skewness" [] (0.0),
  .eq "kurtosis" [] (0.0),
  .eq "unbiased_kurtosis" [] (0.0)] == []

-- test/cumulative/moment_suite.cpp:535 kurtosis_double_suite::test_linear_increase
#guard failures cumulativeKurtosis [
  .push [1.0],
  .eq "mean" [] (1.0),
  .eq "variance" [] (0.0),
  .eq "skewness" [] (0.0),
  .eq "kurtosis" [] (0.0),
  .eq "unbiased_kurtosis" [] (0.0),
  .push [2.0],
  .close "mean" [] (1.5) 1.0e-05,
  .close "variance" [] (0.25) 1.0e-05,
  .close "skewness" [] (0.0) 1.0e-05,
  .close "kurtosis" [] (1.0) 1.0e-05,
  .close "unbiased_kurtosis" [] (0.0) 1.0e-05,
  .push [3.0],
  .close "mean" [] (2.0) 1.0e-05,
  .close "variance" [] (0.666667) 1.0e-05,
  .close "skewness" [] (0.0) 1.0e-05,
  .close "kurtosis" [] (1.5) 1.0e-05,
  .close "unbiased_kurtosis" [] (0.0) 1.0e-05,
  .push [4.0],
  .close "mean" [] (2.5) 1.0e-05,
  .close "variance" [] (1.25) 1.0e-05,
  .close "skewness" [] (0.0) 1.0e-05,
  .close "kurtosis" [] (1.64) 1.0e-05,
  .close "unbiased_kurtosis" [] (1.8) 1.0e-05,
  .push [5.0],
  .close "mean" [] (3.0) 1.0e-05,
  .close "variance" [] (2.0) 1.0e-05,
  .close "skewness" [] (0.0) 1.0e-05,
  .close "kurtosis" [] (1.7) 1.0e-05,
  .close "unbiased_kurtosis" [] (1.8) 1.0e-05] == []

-- test/cumulative/moment_suite.cpp:571 kurtosis_double_suite::test_exponential_increase
#guard failures cumulativeKurtosis [
  .push [1.0],
  .eq "mean" [] (1.0),
  .eq "variance" [] (0.0),
  .eq "skewness" [] (0.0),
  .eq "kurtosis" [] (0.0),
  .eq "unbiased_kurtosis" [] (0.0),
  .push [10.0],
  .close "mean" [] (5.5) 1.0e-05,
  .close "variance" [] (20.25) 1.0e-05,
  .close "skewness" [] (0.0) 1.0e-05,
  .close "kurtosis" [] (1.0) 1.0e-05,
  .close "unbiased_kurtosis" [] (0.0) 1.0e-05,
  .push [100.0],
  .close "mean" [] (37.0) 1.0e-05,
  .close "variance" [] (1998.0) 1.0e-05,
  .close "skewness" [] (0.68567) 1.0e-05,
  .close "kurtosis" [] (1.5) 1.0e-05,
  .close "unbiased_kurtosis" [] (0.0) 1.0e-05,
  .push [1000.0],
  .close "mean" [] (277.75) 1.0e-05,
  .close "variance" [] (175380.0) 1.0e-05,
  .close "skewness" [] (1.12582) 1.0e-05,
  .close "kurtosis" [] (2.30928) 1.0e-05,
  .close "unbiased_kurtosis" [] (6.81961) 1.0e-05,
  .push [10000.0],
  .close "mean" [] (2222.2) 1.0e-05,
  .close "variance" [] (15263800.0) 1.0e-05,
  .close "skewness" [] (1.46675) 1.0e-05,
  .close "kurtosis" [] (3.20222) 1.0e-05,
  .close "unbiased_kurtosis" [] (7.8089) 1.0e-05,
  .push [100000.0],
  .close "mean" [] (18518.5) 1.0e-05,
  .close "variance" [] (1340570000.0) 1.0e-05,
  .close "skewness" [] (1.75227) 1.0e-05,
  .close "kurtosis" [] (4.12966) 1.0e-05,
  .close "unbiased_kurtosis" [] (8.79483) 1.0e-05,
  .push [1000000.0],
  .close "mean" [] (158730.0) 1.0e-05,
  .close "variance" [] (119105000000.0) 1.0e-05,
  .close "skewness" [] (2.00181) 1.0e-05,
  .close "kurtosis" [] (5.07455) 1.0e-05,
  .close "unbiased_kurtosis" [] (9.77891) 1.0e-05,
  .push [10000000.0],
  .close "mean" [] (1388900.0) 1.0e-05,
  .close "variance" [] (10697300000000.0) 1.0e-05,
  .close "skewness" [] (2.22579) 1.0e-05,
  .close "kurtosis" [] (6.02947) 1.0e-05,
  .close "unbiased_kurtosis" [] (10.7619) 1.0e-05,
  .push [100000000.0],
  .close "mean" [] (12345679.0) 1.0e-05,
  .close "variance" [] (969919000000000.0) 1.0e-05,
  .close "skewness" [] (2.43051) 1.0e-05,
  .close "kurtosis" [] (6.99069) 1.0e-05,
  .close "unbiased_kurtosis" [] (11.7442) 1.0e-05,
  .push [1000000000.0],
  .close "mean" [] (111110000.0) 1.0e-05,
  .close "variance" [] (8.86644e+16) 1.0e-05,
  .close "skewness" [] (2.62009) 1.0e-05,
  .close "kurtosis" [] (7.95612) 1.0e-05,
  .close "unbiased_kurtosis" [] (12.726) 1.0e-05] == []

-- test/cumulative/moment_suite.cpp:637 kurtosis_double_suite::test_left_skew
#guard failures cumulativeKurtosis [
  .push [1.0],
  .eq "mean" [] (1.0),
  .eq "variance" [] (0.0),
  .eq "skewness" [] (0.0),
  .eq "kurtosis" [] (0.0),
  .eq "unbiased_kurtosis" [] (0.0),
  .push [2.0],
  .close "mean" [] (1.5) 1.0e-05,
  .close "variance" [] (0.25) 1.0e-05,
  .close "skewness" [] (0.0) 1.0e-05,
  .close "kurtosis" [] (1.0) 1.0e-05,
  .close "unbiased_kurtosis" [] (0.0) 1.0e-05,
  .push [5.0],
  .close "mean" [] (2.66667) 1.0e-05,
  .close "variance" [] (2.88889) 1.0e-05,
  .close "skewness" [] (0.528) 1.0e-05,
  .close "kurtosis" [] (1.5) 1.0e-05,
  .close "unbiased_kurtosis" [] (0.0) 1.0e-05,
  .push [15.0],
  .close "mean" [] (5.75) 1.0e-05,
  .close "variance" [] (30.6875) 1.0e-05,
  .close "skewness" [] (0.92814) 1.0e-05,
  .close "kurtosis" [] (2.13122) 1.0e-05,
  .close "unbiased_kurtosis" [] (5.48416) 1.0e-05] == []

-- test/cumulative/moment_suite.cpp:703 algorithm_suite::copy_empty
#guard failures cumulativeMoment [
  .eq "size" [] (0.0)] == []

-- test/cumulative/moment_suite.cpp:711 algorithm_suite::copy_sequence
#guard failures cumulativeMoment [
  .push [1.0],
  .push [2.0],
  .push [3.0],
  .push [4.0],
  .push [5.0],
  .eq "size" [] (5.0),
  .eq "mean" [] (3.0)] == []

-- test/cumulative/moment_suite.cpp:720 algorithm_suite::copy_if_empty
#guard failures cumulativeMoment [
  .eq "size" [] (0.0)] == []

-- test/cumulative/moment_suite.cpp:728 algorithm_suite::copy_if_sequence
#guard failures cumulativeMoment [
  .push [1.0],
  .push [2.0],
  .eq "size" [] (2.0),
  .eq "mean" [] (1.5)] == []

-- test/cumulative/moment_suite.cpp:737 algorithm_suite::move_empty
#guard failures cumulativeMoment [
  .eq "size" [] (0.0)] == []

-- test/cumulative/moment_suite.cpp:745 algorithm_suite::move_sequence
#guard failures cumulativeMoment [
  .push [1.0],
  .push [2.0],
  .push [3.0],
  .push [4.0],
  .push [5.0],
  .eq "size" [] (5.0),
  .eq "mean" [] (3.0)] == []

-- test/cumulative/moment_suite.cpp:754 algorithm_suite::transform_empty
#guard failures cumulativeMoment [
  .eq "size" [] (0.0)] == []

-- test/cumulative/moment_suite.cpp:762 algorithm_suite::transform_sequence
#guard failures cumulativeMoment [
  .push [1.0],
  .push [4.0],
  .push [9.0],
  .push [16.0],
  .push [25.0],
  .eq "size" [] (5.0),
  .eq "mean" [] (11.0)] == []

-- test/cumulative/comoment_suite.cpp:22 covariance_double_suite::test_ctor
#guard failures cumulativeCovariance [
  .eq "size" [] (0.0),
  .eq "unbiased_variance" [] (0.0),
  .eq "variance" [] (0.0)] == []

-- test/cumulative/comoment_suite.cpp:30 covariance_double_suite::test_same_no_increment
#guard failures cumulativeCovariance [
  .push [2.0, 2.0],
  .eq "size" [] (1.0),
  .eq "unbiased_variance" [] (0.0),
  .eq "variance" [] (0.0),
  .push [2.0, 2.0],
  .eq "size" [] (2.0),
  .eq "unbiased_variance" [] (0.0),
  .eq "variance" [] (0.0),
  .push [2.0, 2.0],
  .eq "size" [] (3.0),
  .eq "unbiased_variance" [] (0.0),
  .eq "variance" [] (0.0)] == []

-- test/cumulative/comoment_suite.cpp:47 covariance_double_suite::test_same_increment_by_one
#guard failures cumulativeCovariance [
  .push [1.0, 1.0],
  .eq "unbiased_variance" [] (0.0),
  .eq "variance" [] (0.0),
  .push [2.0, 2.0],
  .close "unbiased_variance" [] (0.5) 1.0e-05,
  .close "variance" [] (0.25) 1.0e-05,
  .push [3.0, 3.0],
  .close "unbiased_variance" [] (1.0) 1.0e-05,
  .close "variance" [] (0.666667) 1.0e-05,
  .push [4.0, 4.0],
  .close "unbiased_variance" [] (1.666667) 1.0e-05,
  .close "variance" [] (1.25) 1.0e-05,
  .push [5.0, 5.0],
  .close "unbiased_variance" [] (2.5) 1.0e-05,
  .close "variance" [] (2.0) 1.0e-05] == []

-- test/cumulative/comoment_suite.cpp:68 covariance_double_suite::test_same_increment_by_half
#guard failures cumulativeCovariance [
  .push [1.0, 1.0],
  .eq "unbiased_variance" [] (0.0),
  .eq "variance" [] (0.0),
  .push [1.5, 1.5],
  .close "unbiased_variance" [] (0.125) 1.0e-05,
  .close "variance" [] (0.0625) 1.0e-05,
  .push [2.0, 2.0],
  .close "unbiased_variance" [] (0.25) 1.0e-05,
  .close "variance" [] (0.166667) 1.0e-05,
  .push [2.5, 2.5],
  .close "unbiased_variance" [] (0.416667) 1.0e-05,
  .close "variance" [] (0.3125) 1.0e-05,
  .push [3.0, 3.0],
  .close "unbiased_variance" [] (0.625) 1.0e-05,
  .close "variance" [] (0.5) 1.0e-05] == []

-- test/cumulative/comoment_suite.cpp:89 covariance_double_suite::test_shifted_no_increment
#guard failures cumulativeCovariance [
  .push [1.0, 2.0],
  .eq "unbiased_variance" [] (0.0),
  .eq "variance" [] (0.0),
  .push [1.0, 2.0],
  .eq "unbiased_variance" [] (0.0),
  .eq "variance" [] (0.0),
  .push [1.0, 2.0],
  .eq "unbiased_variance" [] (0.0),
  .eq "variance" [] (0.0)] == []

-- test/cumulative/comoment_suite.cpp:103 covariance_double_suite::test_shifted_increment_by_one
#guard failures cumulativeCovariance [
  .push [1.0, 2.0],
  .eq "unbiased_variance" [] (0.0),
  .eq "variance" [] (0.0),
  .push [2.0, 3.0],
  .close "unbiased_variance" [] (0.5) 1.0e-05,
  .close "variance" [] (0.25) 1.0e-05,
  .push [3.0, 4.0],
  .close "unbiased_variance" [] (1.0) 1.0e-05,
  .close "variance" [] (0.666667) 1.0e-05,
  .push [4.0, 5.0],
  .close "unbiased_variance" [] (1.666667) 1.0e-05,
  .close "variance" [] (1.25) 1.0e-05,
  .push [5.0, 6.0],
  .close "unbiased_variance" [] (2.5) 1.0e-05,
  .close "variance" [] (2.0) 1.0e-05] == []

-- test/cumulative/comoment_suite.cpp:124 covariance_double_suite::test_up_down_by_one
#guard failures cumulativeCovariance [
  .push [0.0, 0.0],
  .eq "unbiased_variance" [] (0.0),
  .eq "variance" [] (0.0),
  .push [1.0, -1.0],
  .close "unbiased_variance" [] (-0.5) 1.0e-05,
  .close "variance" [] (-0.25) 1.0e-05,
  .push [2.0, -2.0],
  .close "unbiased_variance" [] (-1.0) 1.0e-05,
  .close "variance" [] (-0.666667) 1.0e-05,
  .push [3.0, -3.0],
  .close "unbiased_variance" [] (-1.666667) 1.0e-05,
  .close "variance" [] (-1.25) 1.0e-05,
  .push [4.0, -4.0],
  .close "unbiased_variance" [] (-2.5) 1.0e-05,
  .close "variance" [] (-2.0) 1.0e-05] == []

-- test/cumulative/comoment_suite.cpp:145 covariance_double_suite::test_down_up_by_one
#guard failures cumulativeCovariance [
  .push [0.0, 0.0],
  .eq "unbiased_variance" [] (0.0),
  .eq "variance" [] (0.0),
  .push [-1.0, 1.0],
  .close "unbiased_variance" [] (-0.5) 1.0e-05,
  .close "variance" [] (-0.25) 1.0e-05,
  .push [-2.0, 2.0],
  .close "unbiased_variance" [] (-1.0) 1.0e-05,
  .close "variance" [] (-0.666667) 1.0e-05,
  .push [-3.0, 3.0],
  .close "unbiased_variance" [] (-1.666667) 1.0e-05,
  .close "variance" [] (-1.25) 1.0e-05,
  .push [-4.0, 4.0],
  .close "unbiased_variance" [] (-2.5) 1.0e-05,
  .close "variance" [] (-2.0) 1.0e-05] == []

-- test/cumulative/comoment_suite.cpp:166 covariance_double_suite::test_exponential_increase
#guard failures cumulativeCovariance [
  .push [1.0, 1.0],
  .eq "variance" [] (0.0),
  .eq "unbiased_variance" [] (0.0),
  .push [10.0, 10.0],
  .close "variance" [] (20.25) 0.0001,
  .close "unbiased_variance" [] (40.5) 0.0001,
  .push [100.0, 100.0],
  .close "variance" [] (1998.0) 0.0001,
  .close "unbiased_variance" [] (2997.0) 0.0001,
  .push [1000.0, 1000.0],
  .close "variance" [] (175380.0) 0.0001,
  .close "unbiased_variance" [] (233840.0) 0.0001,
  .push [10000.0, 10000.0],
  .close "variance" [] (15264000.0) 0.0001,
  .close "unbiased_variance" [] (19080000.0) 0.0001,
  .push [100000.0, 100000.0],
  .close "variance" [] (1340600000.0) 0.0001,
  .close "unbiased_variance" [] (1608700000.0) 0.0001,
  .push [1000000.0, 1000000.0],
  .close "variance" [] (119100000000.0) 0.0001,
  .close "unbiased_variance" [] (138960000000.0) 0.0001] == []

-- test/cumulative/comoment_suite.cpp:193 covariance_double_suite::test_clear
#guard failures cumulativeCovariance [
  .eq "size" [] (0.0),
  .push [0.0, 0.0],
  .eq "size" [] (1.0),
  .clear,
  .eq "size" [] (0.0)] == []

-- test/cumulative/comoment_suite.cpp:224 covariance_properties_suite::test_constant
#guard failures cumulativeCovariance [
  .push [0.0, 0.0],
  .eq "unbiased_variance" [] (0.0),
  .eq "variance" [] (0.0),
  .push [1.0, 0.0],
  .eq "unbiased_variance" [] (0.0),
  .eq "variance" [] (0.0),
  .push [10.0, 0.0],
  .eq "unbiased_variance" [] (0.0),
  .eq "variance" [] (0.0),
  .push [100.0, 0.0],
  .eq "unbiased_variance" [] (0.0),
  .eq "variance" [] (0.0)] == []

-- test/cumulative/correlation_suite.cpp:22 double_suite::test_empty
#guard failures cumulativeCorrelation [
  .eq "size" [] (0.0)] == []

-- test/cumulative/correlation_suite.cpp:28 double_suite::test_hinton
#guard failures cumulativeCorrelation [
  .push [40.0, 58.0],
  .close "value" [] (1.0) 1.0e-05,
  .push [43.0, 73.0],
  .close "value" [] (1.0) 1.0e-05,
  .push [18.0, 56.0],
  .close "value" [] (0.67543) 1.0e-05,
  .push [10.0, 47.0],
  .close "value" [] (0.84317) 1.0e-05,
  .push [25.0, 58.0],
  .close "value" [] (0.84181) 1.0e-05,
  .push [33.0, 54.0],
  .close "value" [] (0.77024) 1.0e-05,
  .push [27.0, 45.0],
  .close "value" [] (0.67569) 1.0e-05,
  .push [17.0, 32.0],
  .close "value" [] (0.68849) 1.0e-05,
  .push [30.0, 68.0],
  .close "value" [] (0.66685) 1.0e-05,
  .push [47.0, 69.0],
  .close "value" [] (0.72071) 1.0e-05] == []

-- test/cumulative/correlation_suite.cpp:67 anscombe_quartet::anscombe_I
#guard failures cumulativeCorrelation [
  .push [10.0, 8.04],
  .push [8.0, 6.95],
  .push [13.0, 7.58],
  .push [9.0, 8.81],
  .push [11.0, 8.33],
  .push [14.0, 9.96],
  .push [6.0, 7.24],
  .push [4.0, 4.26],
  .push [12.0, 10.84],
  .push [7.0, 4.82],
  .push [5.0, 5.68],
  .close "value" [] (0.816) 0.05] == []

-- test/cumulative/correlation_suite.cpp:86 anscombe_quartet::anscombe_II
#guard failures cumulativeCorrelation [
  .push [10.0, 9.14],
  .push [8.0, 8.14],
  .push [13.0, 8.74],
  .push [9.0, 8.77],
  .push [11.0, 9.26],
  .push [14.0, 8.1],
  .push [6.0, 6.13],
  .push [4.0, 3.1],
  .push [12.0, 9.13],
  .push [7.0, 7.26],
  .push [5.0, 4.74],
  .close "value" [] (0.816) 0.05] == []

-- test/cumulative/correlation_suite.cpp:105 anscombe_quartet::anscombe_III
#guard failures cumulativeCorrelation [
  .push [10.0, 7.46],
  .push [8.0, 6.77],
  .push [13.0, 12.74],
  .push [9.0, 7.11],
  .push [11.0, 7.81],
  .push [14.0, 8.84],
  .push [6.0, 6.08],
  .push [4.0, 5.39],
  .push [12.0, 8.15],
  .push [7.0, 6.42],
  .push [5.0, 5.73],
  .close "value" [] (0.816) 0.05] == []

-- test/cumulative/correlation_suite.cpp:124 anscombe_quartet::anscombe_IV
#guard failures cumulativeCorrelation [
  .push [8.0, 6.58],
  .push [8.0, 5.76],
  .push [8.0, 7.71],
  .push [8.0, 8.84],
  .push [8.0, 8.47],
  .push [8.0, 7.04],
  .push [8.0, 5.25],
  .push [19.0, 12.5],
  .push [8.0, 5.56],
  .push [8.0, 7.91],
  .push [8.0, 6.89],
  .close "value" [] (0.816) 0.05] == []

-- test/cumulative/regression_suite.cpp:25 cumulative_double::test_ctor
#guard failures cumulativeRegression [
  .eq "size" [] (0.0)] == []

-- test/cumulative/regression_suite.cpp:31 cumulative_double::test_same
#guard failures cumulativeRegression [
  .push [1.0, 1.0],
  .eq "size" [] (1.0),
  .close "slope" [] (0.0) 1.0e-05,
  .close "at" [0.0] (1.0) 1.0e-05,
  .push [1.0, 1.0],
  .eq "size" [] (2.0),
  .close "slope" [] (0.0) 1.0e-05,
  .close "at" [0.0] (1.0) 1.0e-05,
  .push [1.0, 1.0],
  .eq "size" [] (3.0),
  .close "slope" [] (0.0) 1.0e-05,
  .close "at" [0.0] (1.0) 1.0e-05] == []

-- test/cumulative/regression_suite.cpp:52 cumulative_double::test_linear_increase
#guard failures cumulativeRegression [
  .push [0.0, 0.0],
  .eq "size" [] (1.0),
  .close "slope" [] (0.0) 1.0e-05,
  .close "at" [0.0] (0.0) 1.0e-05,
  .push [1.0, 1.0],
  .eq "size" [] (2.0),
  .close "slope" [] (1.0) 1.0e-05,
  .close "at" [0.0] (0.0) 1.0e-05,
  .close "at" [1.0] (1.0) 1.0e-05,
  .push [2.0, 2.0],
  .eq "size" [] (3.0),
  .close "slope" [] (1.0) 1.0e-05,
  .close "at" [0.0] (0.0) 1.0e-05,
  .close "at" [2.0] (2.0) 1.0e-05,
  .push [3.0, 3.0],
  .eq "size" [] (4.0),
  .close "slope" [] (1.0) 1.0e-05,
  .close "at" [0.0] (0.0) 1.0e-05,
  .close "at" [3.0] (3.0) 1.0e-05,
  .push [4.0, 4.0],
  .eq "size" [] (5.0),
  .close "slope" [] (1.0) 1.0e-05,
  .close "at" [0.0] (0.0) 1.0e-05,
  .close "at" [4.0] (4.0) 1.0e-05] == []

-- test/cumulative/regression_suite.cpp:87 cumulative_double::test_linear_increase__offset
#guard failures cumulativeRegression [
  .push [2.0, 2.0],
  .close "slope" [] (0.0) 1.0e-05,
  .close "at" [0.0] (2.0) 1.0e-05,
  .push [3.0, 3.0],
  .close "slope" [] (1.0) 1.0e-05,
  .close "at" [0.0] (0.0) 1.0e-05,
  .push [4.0, 4.0],
  .close "slope" [] (1.0) 1.0e-05,
  .close "at" [0.0] (0.0) 1.0e-05] == []

-- test/cumulative/regression_suite.cpp:105 cumulative_double::test_linear_decrease
#guard failures cumulativeRegression [
  .push [2.0, 2.0],
  .close "slope" [] (0.0) 1.0e-05,
  .close "at" [0.0] (2.0) 1.0e-05,
  .push [1.0, 1.0],
  .close "slope" [] (1.0) 1.0e-05,
  .close "at" [0.0] (0.0) 1.0e-05,
  .push [0.0, 0.0],
  .close "slope" [] (1.0) 1.0e-05,
  .close "at" [0.0] (0.0) 1.0e-05,
  .push [-1.0, -1.0],
  .close "slope" [] (1.0) 1.0e-05,
  .close "at" [0.0] (0.0) 1.0e-05,
  .push [-2.0, -2.0],
  .close "slope" [] (1.0) 1.0e-05,
  .close "at" [0.0] (0.0) 1.0e-05] == []

-- test/cumulative/regression_suite.cpp:131 cumulative_double::test_scatter
#guard failures cumulativeRegression [
  .push [1.0, 1.0],
  .close "slope" [] (0.0) 1.0e-05,
  .close "at" [0.0] (1.0) 1.0e-05,
  .push [2.0, 2.0],
  .close "slope" [] (1.0) 1.0e-05,
  .close "at" [0.0] (0.0) 1.0e-05,
  .push [3.0, 1.3],
  .close "slope" [] (0.15) 1.0e-05,
  .close "at" [0.0] (1.13333) 1.0e-05,
  .push [4.0, 3.75],
  .close "slope" [] (0.755) 1.0e-05,
  .close "at" [0.0] (0.125) 1.0e-05,
  .push [5.0, 2.25],
  .close "slope" [] (0.425) 1.0e-05,
  .close "at" [0.0] (0.785) 1.0e-05] == []

-- test/cumulative/regression_suite.cpp:174 anscombe_quartet::anscombe_I
#guard failures cumulativeRegression [
  .push [10.0, 8.04],
  .push [8.0, 6.95],
  .push [13.0, 7.58],
  .push [9.0, 8.81],
  .push [11.0, 8.33],
  .push [14.0, 9.96],
  .push [6.0, 7.24],
  .push [4.0, 4.26],
  .push [12.0, 10.84],
  .push [7.0, 4.82],
  .push [5.0, 5.68],
  .close "slope" [] (0.5) 0.05,
  .close "at" [0.0] (3.0) 0.05] == []

-- test/cumulative/regression_suite.cpp:194 anscombe_quartet::anscombe_II
#guard failures cumulativeRegression [
  .push [10.0, 9.14],
  .push [8.0, 8.14],
  .push [13.0, 8.74],
  .push [9.0, 8.77],
  .push [11.0, 9.26],
  .push [14.0, 8.1],
  .push [6.0, 6.13],
  .push [4.0, 3.1],
  .push [12.0, 9.13],
  .push [7.0, 7.26],
  .push [5.0, 4.74],
  .close "slope" [] (0.5) 0.05,
  .close "at" [0.0] (3.0) 0.05] == []

-- test/cumulative/regression_suite.cpp:214 anscombe_quartet::anscombe_III
#guard failures cumulativeRegression [
  .push [10.0, 7.46],
  .push [8.0, 6.77],
  .push [13.0, 12.74],
  .push [9.0, 7.11],
  .push [11.0, 7.81],
  .push [14.0, 8.84],
  .push [6.0, 6.08],
  .push [4.0, 5.39],
  .push [12.0, 8.15],
  .push [7.0, 6.42],
  .push [5.0, 5.73],
  .close "slope" [] (0.5) 0.05,
  .close "at" [0.0] (3.0) 0.05] == []

-- test/cumulative/regression_suite.cpp:234 anscombe_quartet::anscombe_IV
#guard failures cumulativeRegression [
  .push [8.0, 6.58],
  .push [8.0, 5.76],
  .push [8.0, 7.71],
  .push [8.0, 8.84],
  .push [8.0, 8.47],
  .push [8.0, 7.04],
  .push [8.0, 5.25],
  .push [19.0, 12.5],
  .push [8.0, 5.56],
  .push [8.0, 7.91],
  .push [8.0, 6.89],
  .close "slope" [] (0.5) 0.05,
  .close "at" [0.0] (3.0) 0.05] == []

-- test/cumulative/trend_suite.cpp:22 double_suite::test_ctor
#guard failures cumulativeTrend [
  .eq "size" [] (0.0),
  .eq "value" [] (0.0)] == []

-- test/cumulative/trend_suite.cpp:29 double_suite::test_same
#guard failures cumulativeTrend [
  .push [1.0],
  .eq "size" [] (1.0),
  .close "value" [] (1.0) 1.0e-05,
  .push [1.0],
  .eq "size" [] (2.0),
  .close "value" [] (1.0) 1.0e-05,
  .push [1.0],
  .eq "size" [] (3.0),
  .close "value" [] (1.0) 1.0e-05,
  .push [1.0],
  .eq "size" [] (4.0),
  .close "value" [] (1.0) 1.0e-05,
  .push [1.0],
  .eq "size" [] (5.0),
  .close "value" [] (1.0) 1.0e-05] == []

-- test/cumulative/trend_suite.cpp:51 double_suite::test_linear_increase
#guard failures cumulativeTrend [
  .push [1.0],
  .close "value" [] (1.0) 1.0e-05,
  .push [2.0],
  .close "value" [] (2.0) 1.0e-05,
  .push [3.0],
  .close "value" [] (3.0) 1.0e-05,
  .push [4.0],
  .close "value" [] (4.0) 1.0e-05,
  .push [5.0],
  .close "value" [] (5.0) 1.0e-05,
  .push [6.0],
  .close "value" [] (6.0) 1.0e-05,
  .push [7.0],
  .close "value" [] (7.0) 1.0e-05,
  .push [8.0],
  .close "value" [] (8.0) 1.0e-05,
  .push [9.0],
  .close "value" [] (9.0) 1.0e-05,
  .push [10.0],
  .close "value" [] (10.0) 1.0e-05] == []

-- test/cumulative/trend_suite.cpp:78 double_suite::test_linear_increase_offset
#guard failures cumulativeTrend [
  .push [10.0],
  .close "value" [] (10.0) 1.0e-05,
  .push [11.0],
  .close "value" [] (11.0) 1.0e-05,
  .push [12.0],
  .close "value" [] (12.0) 1.0e-05] == []

-- test/cumulative/trend_suite.cpp:91 double_suite::test_linear_decrease
#guard failures cumulativeTrend [
  .push [10.0],
  .close "value" [] (10.0) 1.0e-05,
  .push [9.0],
  .close "value" [] (9.0) 1.0e-05,
  .push [8.0],
  .close "value" [] (8.0) 1.0e-05,
  .push [7.0],
  .close "value" [] (7.0) 1.0e-05,
  .push [6.0],
  .close "value" [] (6.0) 1.0e-05,
  .push [5.0],
  .close "value" [] (5.0) 1.0e-05,
  .push [4.0],
  .close "value" [] (4.0) 1.0e-05,
  .push [3.0],
  .close "value" [] (3.0) 1.0e-05,
  .push [2.0],
  .close "value" [] (2.0) 1.0e-05,
  .push [1.0],
  .close "value" [] (1.0) 1.0e-05] == []

-- test/cumulative/trend_suite.cpp:118 double_suite::test_alternating
#guard failures cumulativeTrend [
  .push [1.0],
  .close "value" [] (1.0) 1.0e-05,
  .push [2.0],
  .close "value" [] (2.0) 1.0e-05,
  .push [1.0],
  .close "value" [] (1.44444) 1.0e-05,
  .push [2.0],
  .close "value" [] (1.83333) 1.0e-05,
  .push [1.0],
  .close "value" [] (1.50667) 1.0e-05,
  .push [2.0],
  .close "value" [] (1.75556) 1.0e-05,
  .push [1.0],
  .close "value" [] (1.52517) 1.0e-05,
  .push [2.0],
  .close "value" [] (1.70952) 1.0e-05,
  .push [1.0],
  .close "value" [] (1.53192) 1.0e-05,
  .push [2.0],
  .close "value" [] (1.67873) 1.0e-05,
  .push [1.0],
  .close "value" [] (1.53438) 1.0e-05,
  .push [2.0],
  .close "value" [] (1.65652) 1.0e-05,
  .push [1.0],
  .close "value" [] (1.53501) 1.0e-05,
  .push [2.0],
  .close "value" [] (1.63965) 1.0e-05,
  .push [1.0],
  .close "value" [] (1.53479) 1.0e-05,
  .push [2.0],
  .close "value" [] (1.62636) 1.0e-05,
  .push [1.0],
  .close "value" [] (1.53415) 1.0e-05,
  .push [2.0],
  .close "value" [] (1.61559) 1.0e-05,
  .push [1.0],
  .close "value" [] (1.53333) 1.0e-05,
  .push [2.0],
  .close "value" [] (1.60666) 1.0e-05,
  .push [1000.0],
  .close "value" [] (139.716) 1.0e-05,
  .push [2.0],
  .close "value" [] (129.374) 1.0e-05,
  .push [1.0],
  .close "value" [] (119.974) 1.0e-05,
  .push [2.0],
  .close "value" [] (111.631) 1.0e-05,
  .push [1.0],
  .close "value" [] (103.971) 1.0e-05,
  .push [2.0],
  .close "value" [] (97.1314) 1.0e-05,
  .push [1.0],
  .close "value" [] (90.7946) 1.0e-05,
  .push [2.0],
  .close "value" [] (85.1106) 1.0e-05,
  .push [1.0],
  .close "value" [] (79.8012) 1.0e-05,
  .push [2.0],
  .close "value" [] (75.0212) 1.0e-05,
  .push [1.0],
  .close "value" [] (70.5231) 1.0e-05,
  .push [2.0],
  .close "value" [] (66.4618) 1.0e-05,
  .push [1.0],
  .close "value" [] (62.614) 1.0e-05,
  .push [2.0],
  .close "value" [] (59.1323) 1.0e-05,
  .push [1.0],
  .close "value" [] (55.8126) 1.0e-05,
  .push [2.0],
  .close "value" [] (52.8039) 1.0e-05,
  .push [1.0],
  .close "value" [] (49.9181) 1.0e-05,
  .push [2.0],
  .close "value" [] (47.2997) 1.0e-05] == []

-- test/cumulative/trend_suite.cpp:209 double_suite::test_scatter
#guard failures cumulativeTrend [
  .push [1.0],
  .close "value" [] (1.0) 1.0e-05,
  .push [2.0],
  .close "value" [] (2.0) 1.0e-05,
  .push [1.3],
  .close "value" [] (1.67778) 1.0e-05,
  .push [3.75],
  .close "value" [] (3.06458) 1.0e-05,
  .push [2.25],
  .close "value" [] (2.97767) 1.0e-05,
  .push [1.4],
  .close "value" [] (2.53139) 1.0e-05,
  .push [4.1],
  .close "value" [] (3.28201) 1.0e-05] == []

-- test/cumulative/trend_suite.cpp:230 double_suite::test_clear
#guard failures cumulativeTrend [
  .push [1.0],
  .close "value" [] (1.0) 1.0e-05,
  .clear,
  .push [2.0],
  .close "value" [] (2.0) 1.0e-05] == []

-- test/window/moment_suite.cpp:22 mean_double_1_suite::test_ctor
#guard failures (windowMoment 1) [
  .eq "capacity" [] (1.0),
  .flag "empty" true,
  .flag "full" false,
  .eq "size" [] (0.0),
  .eq "mean" [] (0.0)] == []

-- test/window/moment_suite.cpp:32 mean_double_1_suite::test_many
#guard failures (windowMoment 1) [
  .eq "capacity" [] (1.0),
  .push [1.0],
  .flag "empty" false,
  .flag "full" true,
  .eq "size" [] (1.0),
  .eq "mean" [] (1.0),
  .push [2.0],
  .flag "empty" false,
  .flag "full" true,
  .eq "size" [] (1.0),
  .eq "mean" [] (2.0),
  .push [3.0],
  .flag "empty" false,
  .flag "full" true,
  .eq "size" [] (1.0),
  .eq "mean" [] (3.0)] == []

-- test/window/moment_suite.cpp:66 mean_double_2_suite::test_ctor
#guard failures (windowMoment 2) [
  .eq "capacity" [] (2.0),
  .flag "empty" true,
  .flag "full" false,
  .eq "size" [] (0.0),
  .eq "mean" [] (0.0)] == []

-- test/window/moment_suite.cpp:76 mean_double_2_suite::test_one
#guard failures (windowMoment 2) [
  .push [1.0],
  .flag "empty" false,
  .flag "full" false,
  .eq "size" [] (1.0),
  .eq "mean" [] (1.0)] == []

-- test/window/moment_suite.cpp:86 mean_double_2_suite::test_same
#guard failures (windowMoment 2) [
  .push [1.0],
  .eq "size" [] (1.0),
  .eq "mean" [] (1.0),
  .push [1.0],
  .eq "size" [] (2.0),
  .eq "mean" [] (1.0),
  .push [1.0],
  .flag "empty" false,
  .flag "full" true,
  .eq "size" [] (2.0),
  .eq "mean" [] (1.0)] == []

-- test/window/moment_suite.cpp:102 mean_double_2_suite::test_two
#guard failures (windowMoment 2) [
  .push [1.0],
  .eq "mean" [] (1.0),
  .push [3.0],
  .eq "mean" [] (2.0)] == []

-- test/window/moment_suite.cpp:111 mean_double_2_suite::test_three
#guard failures (windowMoment 2) [
  .push [1.0],
  .eq "mean" [] (1.0),
  .push [3.0],
  .eq "mean" [] (2.0),
  .push [0.0],
  .eq "mean" [] (1.5)] == []

-- test/window/moment_suite.cpp:122 mean_double_2_suite::test_linear_increase
#guard failures (windowMoment 2) [
  .push [1.0],
  .eq "mean" [] (1.0),
  .push [2.0],
  .eq "mean" [] (1.5),
  .push [3.0],
  .eq "mean" [] (2.5),
  .push [4.0],
  .eq "mean" [] (3.5),
  .push [5.0],
  .eq "mean" [] (4.5),
  .push [6.0],
  .eq "mean" [] (5.5)] == []

-- test/window/moment_suite.cpp:139 mean_double_2_suite::test_clear
#guard failures (windowMoment 2) [
  .push [1.0],
  .eq "size" [] (1.0),
  .clear,
  .eq "size" [] (0.0),
  .push [2.0],
  .eq "size" [] (1.0),
  .eq "mean" [] (2.0)] == []

-- test/window/moment_suite.cpp:169 mean_double_3_suite::test_ctor
#guard failures (windowMoment 3) [
  .eq "capacity" [] (3.0),
  .flag "empty" true,
  .flag "full" false,
  .eq "size" [] (0.0),
  .eq "mean" [] (0.0)] == []

-- test/window/moment_suite.cpp:179 mean_double_3_suite::test_linear_increase
#guard failures (windowMoment 3) [
  .push [1.0],
  .close "mean" [] (1.0) 1.0e-05,
  .push [2.0],
  .close "mean" [] (1.5) 1.0e-05,
  .push [3.0],
  .close "mean" [] (2.0) 1.0e-05,
  .push [4.0],
  .close "mean" [] (3.0) 1.0e-05,
  .push [5.0],
  .close "mean" [] (4.0) 1.0e-05,
  .push [6.0],
  .close "mean" [] (5.0) 1.0e-05] == []

-- test/window/moment_suite.cpp:210 mean_double_4_suite::test_ctor
#guard failures (windowMoment 4) [
  .eq "capacity" [] (4.0),
  .flag "empty" true,
  .flag "full" false,
  .eq "size" [] (0.0),
  .eq "mean" [] (0.0)] == []

-- test/window/moment_suite.cpp:220 mean_double_4_suite::test_same
#guard failures (windowMoment 4) [
  .push [1.0],
  .eq "size" [] (1.0),
  .eq "mean" [] (1.0),
  .push [1.0],
  .eq "size" [] (2.0),
  .eq "mean" [] (1.0),
  .push [1.0],
  .eq "size" [] (3.0),
  .eq "mean" [] (1.0),
  .push [1.0],
  .eq "size" [] (4.0),
  .eq "mean" [] (1.0),
  .push [1.0],
  .flag "empty" false,
  .flag "full" true,
  .eq "size" [] (4.0),
  .eq "mean" [] (1.0)] == []

-- test/window/moment_suite.cpp:242 mean_double_4_suite::test_linear_increase
#guard failures (windowMoment 4) [
  .push [1.0],
  .eq "mean" [] (1.0),
  .push [2.0],
  .eq "mean" [] (1.5),
  .push [3.0],
  .eq "mean" [] (2.0),
  .push [4.0],
  .eq "mean" [] (2.5),
  .push [5.0],
  .eq "mean" [] (3.5),
  .push [6.0],
  .eq "mean" [] (4.5)] == []

-- test/window/moment_suite.cpp:259 mean_double_4_suite::test_linear_increase_from_offset
#guard failures (windowMoment 4) [
  .push [10.0],
  .eq "mean" [] (10.0),
  .push [11.0],
  .eq "mean" [] (10.5),
  .push [12.0],
  .eq "mean" [] (11.0),
  .push [13.0],
  .eq "mean" [] (11.5),
  .push [14.0],
  .eq "mean" [] (12.5),
  .push [15.0],
  .eq "mean" [] (13.5)] == []

-- test/window/moment_suite.cpp:276 mean_double_4_suite::test_linear_decrease
#guard failures (windowMoment 4) [
  .push [10.0],
  .eq "mean" [] (10.0),
  .push [9.0],
  .eq "mean" [] (9.5),
  .push [8.0],
  .eq "mean" [] (9.0),
  .push [7.0],
  .eq "mean" [] (8.5),
  .push [6.0],
  .eq "mean" [] (7.5),
  .push [5.0],
  .eq "mean" [] (6.5)] == []

-- test/window/moment_suite.cpp:309 mean_float_2_suite::test_ctor
#guard failures (windowMomentFloat 2) [
  .eq "capacity" [] (2.0),
  .flag "empty" true,
  .flag "full" false,
  .eq "size" [] (0.0),
  .eq "mean" [] (0.0)] == []

-- test/window/moment_suite.cpp:319 mean_float_2_suite::test_one
#guard failures (windowMomentFloat 2) [
  .push [1.0],
  .flag "empty" false,
  .flag "full" false,
  .eq "size" [] (1.0),
  .eq "mean" [] (1.0)] == []

-- test/window/moment_suite.cpp:329 mean_float_2_suite::test_same
#guard failures (windowMomentFloat 2) [
  .push [1.0],
  .eq "size" [] (1.0),
  .eq "mean" [] (1.0),
  .push [1.0],
  .eq "size" [] (2.0),
  .eq "mean" [] (1.0),
  .push [1.0],
  .flag "empty" false,
  .flag "full" true,
  .eq "size" [] (2.0),
  .eq "mean" [] (1.0)] == []

-- test/window/moment_suite.cpp:345 mean_float_2_suite::test_two
#guard failures (windowMomentFloat 2) [
  .push [1.0],
  .eq "mean" [] (1.0),
  .push [3.0],
  .eq "mean" [] (2.0)] == []

-- test/window/moment_suite.cpp:354 mean_float_2_suite::test_three
#guard failures (windowMomentFloat 2) [
  .push [1.0],
  .eq "mean" [] (1.0),
  .push [3.0],
  .eq "mean" [] (2.0),
  .push [0.0],
  .eq "mean" [] (1.5)] == []

-- test/window/moment_suite.cpp:365 mean_float_2_suite::test_clear
#guard failures (windowMomentFloat 2) [
  .push [1.0],
  .eq "size" [] (1.0),
  .clear,
  .eq "size" [] (0.0),
  .push [2.0],
  .eq "size" [] (1.0),
  .eq "mean" [] (2.0)] == []

-- test/window/moment_suite.cpp:394 mean_int_2_suite::test_ctor
#guard failures (windowMomentInt 2) [
  .eq "capacity" [] (2.0),
  .flag "empty" true,
  .flag "full" false,
  .eq "size" [] (0.0),
  .eq "mean" [] (0.0)] == []

-- test/window/moment_suite.cpp:404 mean_int_2_suite::test_one
#guard failures (windowMomentInt 2) [
  .push [1.0],
  .flag "empty" false,
  .flag "full" false,
  .eq "size" [] (1.0),
  .eq "mean" [] (1.0)] == []

-- test/window/moment_suite.cpp:414 mean_int_2_suite::test_same
#guard failures (windowMomentInt 2) [
  .push [1.0],
  .eq "size" [] (1.0),
  .eq "mean" [] (1.0),
  .push [1.0],
  .eq "size" [] (2.0),
  .eq "mean" [] (1.0),
  .push [1.0],
  .flag "empty" false,
  .flag "full" true,
  .eq "size" [] (2.0),
  .eq "mean" [] (1.0)] == []

-- test/window/moment_suite.cpp:430 mean_int_2_suite::test_two
#guard failures (windowMomentInt 2) [
  .push [1.0],
  .eq "mean" [] (1.0),
  .push [3.0],
  .eq "mean" [] (2.0)] == []

-- test/window/moment_suite.cpp:439 mean_int_2_suite::test_three
#guard failures (windowMomentInt 2) [
  .push [1.0],
  .eq "mean" [] (1.0),
  .push [3.0],
  .eq "mean" [] (2.0),
  .push [0.0],
  .eq "mean" [] (2.0)] == []

-- test/window/moment_suite.cpp:450 mean_int_2_suite::test_clear
#guard failures (windowMomentInt 2) [
  .push [1.0],
  .eq "size" [] (1.0),
  .clear,
  .eq "size" [] (0.0),
  .push [2.0],
  .eq "size" [] (1.0),
  .eq "mean" [] (2.0)] == []

-- test/window/moment_suite.cpp:479 variance_double_1_suite::test_ctor
#guard failures (windowVariance 1) [
  .eq "capacity" [] (1.0),
  .flag "empty" true,
  .flag "full" false,
  .eq "size" [] (0.0),
  .eq "mean" [] (0.0),
  .eq "variance" [] (0.0),
  .eq "unbiased_variance" [] (0.0)] == []

-- test/window/moment_suite.cpp:491 variance_double_1_suite::test_many
#guard failures (windowVariance 1) [
  .eq "capacity" [] (1.0),
  .push [1.0],
  .flag "empty" false,
  .flag "full" true,
  .eq "size" [] (1.0),
  .eq "mean" [] (1.0),
  .eq "variance" [] (0.0),
  .eq "unbiased_variance" [] (0.0),
  .push [2.0],
  .flag "empty" false,
  .flag "full" true,
  .eq "size" [] (1.0),
  .eq "mean" [] (2.0),
  .eq "variance" [] (0.0),
  .eq "unbiased_variance" [] (0.0),
  .push [3.0],
  .flag "empty" false,
  .flag "full" true,
  .eq "size" [] (1.0),
  .eq "mean" [] (3.0),
  .eq "variance" [] (0.0),
  .eq "unbiased_variance" [] (0.0)] == []

-- test/window/moment_suite.cpp:531 variance_double_2_suite::test_ctor
#guard failures (windowVariance 2) [
  .eq "capacity" [] (2.0),
  .flag "empty" true,
  .flag "full" false,
  .eq "size" [] (0.0),
  .eq "mean" [] (0.0),
  .eq "variance" [] (0.0),
  .eq "unbiased_variance" [] (0.0)] == []

-- test/window/moment_suite.cpp:543 variance_double_2_suite::test_one
#guard failures (windowVariance 2) [
  .push [1.0],
  .flag "empty" false,
  .flag "full" false,
  .eq "size" [] (1.0),
  .eq "mean" [] (1.0),
  .eq "variance" [] (0.0),
  .eq "unbiased_variance" [] (0.0)] == []

-- test/window/moment_suite.cpp:555 variance_double_2_suite::test_same
#guard failures (windowVariance 2) [
  .push [1.0],
  .eq "size" [] (1.0),
  .eq "mean" [] (1.0),
  .eq "variance" [] (0.0),
  .eq "unbiased_variance" [] (0.0),
  .push [1.0],
  .eq "size" [] (2.0),
  .eq "mean" [] (1.0),
  .eq "variance" [] (0.0),
  .eq "unbiased_variance" [] (0.0),
  .push [1.0],
  .flag "empty" false,
  .flag "full" true,
  .eq "size" [] (2.0),
  .eq "mean" [] (1.0),
  .eq "variance" [] (0.0),
  .eq "unbiased_variance" [] (0.0)] == []

-- test/window/moment_suite.cpp:577 variance_double_2_suite::test_two
#guard failures (windowVariance 2) [
  .push [1.0],
  .eq "mean" [] (1.0),
  .eq "variance" [] (0.0),
  .eq "unbiased_variance" [] (0.0),
  .push [3.0],
  .eq "mean" [] (2.0),
  .eq "variance" [] (1.0),
  .eq "unbiased_variance" [] (2.0)] == []

-- test/window/moment_suite.cpp:590 variance_double_2_suite::test_three
#guard failures (windowVariance 2) [
  .push [1.0],
  .eq "mean" [] (1.0),
  .eq "variance" [] (0.0),
  .eq "unbiased_variance" [] (0.0),
  .push [3.0],
  .eq "mean" [] (2.0),
  .eq "variance" [] (1.0),
  .eq "unbiased_variance" [] (2.0),
  .push [0.0],
  .eq "mean" [] (1.5),
  .eq "variance" [] (2.25),
  .eq "unbiased_variance" [] (4.5)] == []

-- test/window/moment_suite.cpp:607 variance_double_2_suite::test_clear
#guard failures (windowVariance 2) [
  .push [1.0],
  .eq "size" [] (1.0),
  .clear,
  .eq "size" [] (0.0),
  .push [2.0],
  .eq "size" [] (1.0)] == []

-- test/window/moment_suite.cpp:635 variance_double_4_suite::test_linear_increase
#guard failures (windowVariance 4) [
  .push [1.0],
  .eq "mean" [] (1.0),
  .close "variance" [] (0.0) 1.0e-05,
  .push [2.0],
  .eq "mean" [] (1.5),
  .close "variance" [] (0.25) 1.0e-05,
  .push [3.0],
  .eq "mean" [] (2.0),
  .close "variance" [] (0.666667) 1.0e-05,
  .push [4.0],
  .eq "mean" [] (2.5),
  .close "variance" [] (1.25) 1.0e-05,
  .push [5.0],
  .eq "mean" [] (3.5),
  .close "variance" [] (1.25) 1.0e-05,
  .push [6.0],
  .eq "mean" [] (4.5),
  .close "variance" [] (1.25) 1.0e-05,
  .push [7.0],
  .eq "mean" [] (5.5),
  .close "variance" [] (1.25) 1.0e-05,
  .push [8.0],
  .eq "mean" [] (6.5),
  .close "variance" [] (1.25) 1.0e-05,
  .push [9.0],
  .eq "mean" [] (7.5),
  .close "variance" [] (1.25) 1.0e-05] == []

-- test/window/moment_suite.cpp:679 variance_double_4_suite::test_scatter
#guard failures (windowVariance 4) [
  .push [1.0],
  .eq "mean" [] (1.0),
  .eq "variance" [] (0.0),
  .push [3.0],
  .eq "mean" [] (2.0),
  .eq "variance" [] (1.0),
  .push [0.0],
  .close "mean" [] (1.33333) 1.0e-05,
  .close "variance" [] (1.55556) 1.0e-05,
  .push [5.0],
  .close "mean" [] (2.25) 1.0e-05,
  .close "variance" [] (3.6875) 1.0e-05,
  .push [2.0],
  .close "mean" [] (2.5) 1.0e-05,
  .close "variance" [] (3.25) 1.0e-05,
  .push [3.0],
  .close "mean" [] (2.5) 1.0e-05,
  .close "variance" [] (3.25) 1.0e-05,
  .push [4.0],
  .close "mean" [] (3.5) 1.0e-05,
  .close "variance" [] (1.25) 1.0e-05,
  .push [1.0],
  .close "mean" [] (2.5) 1.0e-05,
  .close "variance" [] (1.25) 1.0e-05] == []

-- test/window/comoment_suite.cpp:23 properties_suite::test_constant
#guard failures (windowCovariance 32) [
  .push [0.0, 0.0],
  .eq "unbiased_variance" [] (0.0),
  .eq "variance" [] (0.0),
  .push [1.0, 0.0],
  .eq "unbiased_variance" [] (0.0),
  .eq "variance" [] (0.0),
  .push [10.0, 0.0],
  .eq "unbiased_variance" [] (0.0),
  .eq "variance" [] (0.0),
  .push [100.0, 0.0],
  .eq "unbiased_variance" [] (0.0),
  .eq "variance" [] (0.0)] == []

-- test/window/comoment_suite.cpp:246 double_suite::test_empty
#guard failures (windowCovariance 4) [
  .eq "size" [] (0.0),
  .eq "variance" [] (0.0),
  .eq "unbiased_variance" [] (0.0)] == []

-- test/window/comoment_suite.cpp:254 double_suite::test_same_no_increment
#guard failures (windowCovariance 4) [
  .push [2.0, 2.0],
  .eq "variance" [] (0.0),
  .eq "unbiased_variance" [] (0.0),
  .push [2.0, 2.0],
  .eq "variance" [] (0.0),
  .eq "unbiased_variance" [] (0.0),
  .push [2.0, 2.0],
  .eq "variance" [] (0.0),
  .eq "unbiased_variance" [] (0.0),
  .push [2.0, 2.0],
  .eq "variance" [] (0.0),
  .eq "unbiased_variance" [] (0.0),
  .push [2.0, 2.0],
  .eq "variance" [] (0.0),
  .eq "unbiased_variance" [] (0.0)] == []

-- test/window/comoment_suite.cpp:274 double_suite::test_same_increment_by_one
#guard failures (windowCovariance 4) [
  .push [1.0, 1.0],
  .eq "variance" [] (0.0),
  .eq "unbiased_variance" [] (0.0),
  .push [2.0, 2.0],
  .close "variance" [] (0.25) 1.0e-06,
  .close "unbiased_variance" [] (0.5) 1.0e-06,
  .push [3.0, 3.0],
  .close "variance" [] (0.666667) 1.0e-06,
  .close "unbiased_variance" [] (1.0) 1.0e-06,
  .push [4.0, 4.0],
  .close "variance" [] (1.25) 1.0e-06,
  .close "unbiased_variance" [] (1.666667) 1.0e-06,
  .push [5.0, 5.0],
  .close "variance" [] (1.25) 1.0e-06,
  .close "unbiased_variance" [] (1.666667) 1.0e-06] == []

-- test/window/comoment_suite.cpp:296 double_suite::test_same_increment_by_half
#guard failures (windowCovariance 4) [
  .push [1.0, 1.0],
  .eq "variance" [] (0.0),
  .eq "unbiased_variance" [] (0.0),
  .push [1.5, 1.5],
  .close "variance" [] (0.0625) 1.0e-06,
  .close "unbiased_variance" [] (0.125) 1.0e-06,
  .push [2.0, 2.0],
  .close "variance" [] (0.1666667) 1.0e-06,
  .close "unbiased_variance" [] (0.25) 1.0e-06,
  .push [2.5, 2.5],
  .close "variance" [] (0.3125) 1.0e-06,
  .close "unbiased_variance" [] (0.416667) 1.0e-06,
  .push [3.0, 3.0],
  .close "variance" [] (0.3125) 1.0e-06,
  .close "unbiased_variance" [] (0.416667) 1.0e-06] == []

-- test/window/comoment_suite.cpp:318 double_suite::test_exponential_increase
#guard failures (windowCovariance 4) [
  .push [1.0, 1.0],
  .eq "variance" [] (0.0),
  .eq "unbiased_variance" [] (0.0),
  .push [10.0, 10.0],
  .close "variance" [] (20.25) 1.0e-05,
  .close "unbiased_variance" [] (40.5) 1.0e-05,
  .push [100.0, 100.0],
  .close "variance" [] (1998.0) 1.0e-05,
  .close "unbiased_variance" [] (2997.0) 1.0e-05,
  .push [1000.0, 1000.0],
  .close "variance" [] (175380.0) 1.0e-05,
  .close "unbiased_variance" [] (233840.0) 1.0e-05,
  .push [10000.0, 10000.0],
  .close "variance" [] (17538000.0) 1.0e-05,
  .close "unbiased_variance" [] (23384000.0) 1.0e-05,
  .push [100000.0, 100000.0],
  .close "variance" [] (1753800000.0) 1.0e-05,
  .close "unbiased_variance" [] (2338400000.0) 1.0e-05,
  .push [1000000.0, 1000000.0],
  .close "variance" [] (175380000000.0) 1.0e-05,
  .close "unbiased_variance" [] (233840000000.0) 1.0e-05] == []

-- test/window/comoment_suite.cpp:345 double_suite::test_clear
#guard failures (windowCovariance 4) [
  .eq "size" [] (0.0),
  .push [0.0, 0.0],
  .eq "size" [] (1.0),
  .clear,
  .eq "size" [] (0.0)] == []

-- test/window/regression_suite.cpp:22 double_suite::test_ctor
#guard failures (windowRegression 4) [
  .eq "size" [] (0.0)] == []

-- test/window/regression_suite.cpp:28 double_suite::test_same
#guard failures (windowRegression 4) [
  .push [1.0, 1.0],
  .eq "size" [] (1.0),
  .close "slope" [] (0.0) 1.0e-05,
  .close "at" [0.0] (1.0) 1.0e-05,
  .push [1.0, 1.0],
  .eq "size" [] (2.0),
  .close "slope" [] (0.0) 1.0e-05,
  .close "at" [0.0] (1.0) 1.0e-05,
  .push [1.0, 1.0],
  .eq "size" [] (3.0),
  .close "slope" [] (0.0) 1.0e-05,
  .close "at" [0.0] (1.0) 1.0e-05,
  .push [1.0, 1.0],
  .eq "size" [] (4.0),
  .close "slope" [] (0.0) 1.0e-05,
  .close "at" [0.0] (1.0) 1.0e-05,
  .push [1.0, 1.0],
  .eq "size" [] (4.0),
  .close "slope" [] (0.0) 1.0e-05,
  .close "at" [0.0] (1.0) 1.0e-05] == []

-- test/window/regression_suite.cpp:60 double_suite::test_linear_increase
#guard failures (windowRegression 4) [
  .push [0.0, 0.0],
  .close "slope" [] (0.0) 1.0e-05,
  .close "at" [0.0] (0.0) 1.0e-05,
  .push [1.0, 1.0],
  .close "slope" [] (1.0) 1.0e-05,
  .close "at" [0.0] (0.0) 1.0e-05,
  .close "at" [1.0] (1.0) 1.0e-05,
  .push [2.0, 2.0],
  .close "slope" [] (1.0) 1.0e-05,
  .close "at" [0.0] (0.0) 1.0e-05,
  .close "at" [2.0] (2.0) 1.0e-05,
  .push [3.0, 3.0],
  .close "slope" [] (1.0) 1.0e-05,
  .close "at" [0.0] (0.0) 1.0e-05,
  .close "at" [3.0] (3.0) 1.0e-05,
  .push [4.0, 4.0],
  .close "slope" [] (1.0) 1.0e-05,
  .close "at" [0.0] (0.0) 1.0e-05,
  .close "at" [4.0] (4.0) 1.0e-05,
  .push [5.0, 5.0],
  .close "slope" [] (1.0) 1.0e-05,
  .close "at" [0.0] (0.0) 1.0e-05,
  .close "at" [5.0] (5.0) 1.0e-05] == []

-- test/window/regression_suite.cpp:95 double_suite::test_exponential_increase
#guard failures (windowRegression 4) [
  .push [1.0, 1.0],
  .close "slope" [] (0.0) 1.0e-05,
  .close "at" [0.0] (1.0) 1.0e-05,
  .push [10.0, 10.0],
  .close "slope" [] (1.0) 1.0e-05,
  .close "at" [0.0] (0.0) 1.0e-05,
  .push [100.0, 100.0],
  .close "slope" [] (1.0) 1.0e-05,
  .close "at" [0.0] (0.0) 1.0e-05,
  .push [1000.0, 1000.0],
  .close "slope" [] (1.0) 1.0e-05,
  .close "at" [0.0] (0.0) 1.0e-05,
  .push [10000.0, 10000.0],
  .close "slope" [] (1.0) 1.0e-05,
  .close "at" [0.0] (0.0) 1.0e-05,
  .push [100000.0, 100000.0],
  .close "slope" [] (1.0) 1.0e-05,
  .close "at" [0.0] (0.0) 1.0e-05,
  .push [1000000.0, 1000000.0],
  .close "slope" [] (1.0) 1.0e-05,
  .close "at" [0.0] (0.0) 1.0e-05] == []

-- test/window/regression_suite.cpp:129 double_suite::test_scatter
#guard failures (windowRegression 4) [
  .push [1.0, 1.0],
  .close "slope" [] (0.0) 1.0e-05,
  .close "at" [0.0] (1.0) 1.0e-05,
  .close "at" [1.0] (1.0) 1.0e-05,
  .push [2.0, 2.0],
  .close "slope" [] (1.0) 1.0e-05,
  .close "at" [0.0] (0.0) 1.0e-05,
  .close "at" [2.0] (2.0) 1.0e-05,
  .push [3.0, 1.3],
  .close "slope" [] (0.15) 1.0e-05,
  .close "at" [0.0] (1.13333) 1.0e-05,
  .close "at" [3.0] (1.58333) 1.0e-05,
  .push [4.0, 3.75],
  .close "slope" [] (0.755) 1.0e-05,
  .close "at" [0.0] (0.125) 1.0e-05,
  .close "at" [4.0] (3.145) 1.0e-05,
  .push [5.0, 2.25],
  .close "slope" [] (0.32) 1.0e-05,
  .close "at" [0.0] (1.205) 1.0e-05,
  .close "at" [5.0] (2.805) 1.0e-05,
  .push [6.0, 4.5],
  .close "slope" [] (0.81) 1.0e-05,
  .close "at" [0.0] (-0.695) 1.0e-05,
  .close "at" [6.0] (4.165) 1.0e-05,
  .push [7.0, 4.5],
  .close "slope" [] (0.45) 1.0e-05,
  .close "at" [0.0] (1.275) 1.0e-05,
  .close "at" [7.0] (4.425) 1.0e-05] == []

-- test/window/regression_suite.cpp:187 anscombe_quartet::anscombe_I
#guard failures (windowRegression 12) [
  .push [10.0, 8.04],
  .push [8.0, 6.95],
  .push [13.0, 7.58],
  .push [9.0, 8.81],
  .push [11.0, 8.33],
  .push [14.0, 9.96],
  .push [6.0, 7.24],
  .push [4.0, 4.26],
  .push [12.0, 10.84],
  .push [7.0, 4.82],
  .push [5.0, 5.68],
  .close "slope" [] (0.5) 0.05,
  .close "at" [0.0] (3.0) 0.05] == []

-- test/window/regression_suite.cpp:207 anscombe_quartet::anscombe_II
#guard failures (windowRegression 12) [
  .push [10.0, 9.14],
  .push [8.0, 8.14],
  .push [13.0, 8.74],
  .push [9.0, 8.77],
  .push [11.0, 9.26],
  .push [14.0, 8.1],
  .push [6.0, 6.13],
  .push [4.0, 3.1],
  .push [12.0, 9.13],
  .push [7.0, 7.26],
  .push [5.0, 4.74],
  .close "slope" [] (0.5) 0.05,
  .close "at" [0.0] (3.0) 0.05] == []

-- test/window/regression_suite.cpp:227 anscombe_quartet::anscombe_III
#guard failures (windowRegression 12) [
  .push [10.0, 7.46],
  .push [8.0, 6.77],
  .push [13.0, 12.74],
  .push [9.0, 7.11],
  .push [11.0, 7.81],
  .push [14.0, 8.84],
  .push [6.0, 6.08],
  .push [4.0, 5.39],
  .push [12.0, 8.15],
  .push [7.0, 6.42],
  .push [5.0, 5.73],
  .close "slope" [] (0.5) 0.05,
  .close "at" [0.0] (3.0) 0.05] == []

-- test/window/regression_suite.cpp:247 anscombe_quartet::anscombe_IV
#guard failures (windowRegression 12) [
  .push [8.0, 6.58],
  .push [8.0, 5.76],
  .push [8.0, 7.71],
  .push [8.0, 8.84],
  .push [8.0, 8.47],
  .push [8.0, 7.04],
  .push [8.0, 5.25],
  .push [19.0, 12.5],
  .push [8.0, 5.56],
  .push [8.0, 7.91],
  .push [8.0, 6.89],
  .close "slope" [] (0.5) 0.05,
  .close "at" [0.0] (3.0) 0.05] == []

-- test/decay/moment_suite.cpp:27 mean_double_suite::test_ctor
#guard failures (decayMoment 0.125) [
  .eq "mean" [] (0.0)] == []

-- test/decay/moment_suite.cpp:41 mean_double_suite::test_same
#guard failures (decayMoment 0.125) [
  .push [1.0],
  .eq "mean" [] (1.0),
  .push [1.0],
  .eq "mean" [] (1.0),
  .push [1.0],
  .eq "mean" [] (1.0)] == []

-- test/decay/moment_suite.cpp:52 mean_double_suite::test_alternating
#guard failures (decayMoment 0.125) [
  .push [1.0],
  .close "mean" [] (1.0) 1.0e-05,
  .push [2.0],
  .close "mean" [] (1.53333) 1.0e-05,
  .push [1.0],
  .close "mean" [] (1.33136) 1.0e-05,
  .push [2.0],
  .close "mean" [] (1.53333) 1.0e-05,
  .push [1.0],
  .close "mean" [] (1.39647) 1.0e-05,
  .push [2.0],
  .close "mean" [] (1.53333) 1.0e-05,
  .push [1.0],
  .close "mean" [] (1.42356) 1.0e-05,
  .push [2.0],
  .close "mean" [] (1.53333) 1.0e-05,
  .push [1.0],
  .close "mean" [] (1.43801) 1.0e-05,
  .push [2.0],
  .close "mean" [] (1.53333) 1.0e-05,
  .push [1.0],
  .close "mean" [] (1.44673) 1.0e-05,
  .push [2.0],
  .close "mean" [] (1.53333) 1.0e-05,
  .push [1.0],
  .close "mean" [] (1.4524) 1.0e-05,
  .push [2.0],
  .close "mean" [] (1.53333) 1.0e-05,
  .push [1.0],
  .close "mean" [] (1.45627) 1.0e-05,
  .push [2.0],
  .close "mean" [] (1.53333) 1.0e-05,
  .push [1.0],
  .close "mean" [] (1.45899) 1.0e-05,
  .push [2.0],
  .close "mean" [] (1.53333) 1.0e-05,
  .push [1.0],
  .close "mean" [] (1.46094) 1.0e-05,
  .push [2.0],
  .close "mean" [] (1.53333) 1.0e-05,
  .push [1000.0],
  .close "mean" [] (134.387) 1.0e-05,
  .push [2.0],
  .close "mean" [] (116.913) 1.0e-05,
  .push [1.0],
  .close "mean" [] (101.719) 1.0e-05,
  .push [2.0],
  .close "mean" [] (88.7272) 1.0e-05,
  .push [1.0],
  .close "mean" [] (77.3577) 1.0e-05,
  .push [2.0],
  .close "mean" [] (67.636) 1.0e-05] == []

-- test/decay/moment_suite.cpp:119 mean_double_suite::test_linear_increase
#guard failures (decayMoment 0.125) [
  .push [1.0],
  .close "mean" [] (1.0) 1.0e-05,
  .push [2.0],
  .close "mean" [] (1.53333) 1.0e-05,
  .push [3.0],
  .close "mean" [] (2.08876) 1.0e-05,
  .push [4.0],
  .close "mean" [] (2.66608) 1.0e-05,
  .push [5.0],
  .close "mean" [] (3.26502) 1.0e-05,
  .push [6.0],
  .close "mean" [] (3.88525) 1.0e-05,
  .push [7.0],
  .close "mean" [] (4.52635) 1.0e-05,
  .push [8.0],
  .close "mean" [] (5.18786) 1.0e-05,
  .push [9.0],
  .close "mean" [] (5.86924) 1.0e-05,
  .push [10.0],
  .close "mean" [] (6.56991) 1.0e-05] == []

-- test/decay/moment_suite.cpp:146 mean_double_suite::test_linear_decrease
#guard failures (decayMoment 0.125) [
  .push [10.0],
  .close "mean" [] (10.0) 1.0e-05,
  .push [9.0],
  .close "mean" [] (9.46667) 1.0e-05,
  .push [8.0],
  .close "mean" [] (8.91124) 1.0e-05,
  .push [7.0],
  .close "mean" [] (8.33392) 1.0e-05,
  .push [6.0],
  .close "mean" [] (7.73498) 1.0e-05,
  .push [5.0],
  .close "mean" [] (7.11475) 1.0e-05,
  .push [4.0],
  .close "mean" [] (6.47365) 1.0e-05,
  .push [3.0],
  .close "mean" [] (5.81214) 1.0e-05,
  .push [2.0],
  .close "mean" [] (5.13076) 1.0e-05,
  .push [1.0],
  .close "mean" [] (4.43009) 1.0e-05] == []

-- test/decay/moment_suite.cpp:173 mean_double_suite::test_exponential_increase
#guard failures (decayMoment 0.125) [
  .push [1.0],
  .eq "mean" [] (1.0),
  .push [10.0],
  .close "mean" [] (5.8) 1.0e-05,
  .push [100.0],
  .close "mean" [] (41.473) 1.0e-05,
  .push [1000.0],
  .close "mean" [] (331.01) 1.0e-05,
  .push [10000.0],
  .close "mean" [] (2812.32) 1.0e-05,
  .push [100000.0],
  .close "mean" [] (24852.2) 1.0e-05,
  .push [1000000.0],
  .close "mean" [] (225565.0) 1.0e-05,
  .push [10000000.0],
  .close "mean" [] (2086960.0) 1.0e-05,
  .push [100000000.0],
  .close "mean" [] (19587900.0) 1.0e-05,
  .push [1000000000.0],
  .close "mean" [] (185889000.0) 1.0e-05] == []

-- test/decay/moment_suite.cpp:200 mean_double_suite::test_clear
#guard failures (decayMoment 0.125) [
  .push [1.0],
  .eq "mean" [] (1.0),
  .clear,
  .eq "mean" [] (0.0)] == []

-- test/decay/moment_suite.cpp:227 mean_float_suite::test_ctor
#guard failures (decayMomentFloat 0.125) [
  .eq "mean" [] (0.0)] == []

-- test/decay/moment_suite.cpp:233 mean_float_suite::test_same
#guard failures (decayMomentFloat 0.125) [
  .push [1.0],
  .eq "mean" [] (1.0),
  .push [1.0],
  .eq "mean" [] (1.0),
  .push [1.0],
  .eq "mean" [] (1.0)] == []

-- test/decay/moment_suite.cpp:244 mean_float_suite::test_linear_increase
#guard failures (decayMomentFloat 0.125) [
  .push [1.0],
  .eq "mean" [] (1.0),
  .push [2.0],
  .close "mean" [] (1.53333) 1.0e-05,
  .push [3.0],
  .close "mean" [] (2.08876) 1.0e-05,
  .push [4.0],
  .close "mean" [] (2.66608) 1.0e-05,
  .push [6.0],
  .close "mean" [] (3.52165) 1.0e-05,
  .push [5.0],
  .close "mean" [] (3.8569) 1.0e-05,
  .push [7.0],
  .close "mean" [] (4.50384) 1.0e-05,
  .push [8.0],
  .close "mean" [] (5.16963) 1.0e-05,
  .push [9.0],
  .close "mean" [] (5.85427) 1.0e-05,
  .push [10.0],
  .close "mean" [] (6.55748) 1.0e-05] == []

-- test/decay/moment_suite.cpp:270 mean_float_suite::test_linear_decrease
#guard failures (decayMomentFloat 0.125) [
  .push [10.0],
  .eq "mean" [] (10.0),
  .push [9.0],
  .close "mean" [] (9.46667) 1.0e-05,
  .push [8.0],
  .close "mean" [] (8.91124) 1.0e-05,
  .push [7.0],
  .close "mean" [] (8.33392) 1.0e-05,
  .push [5.0],
  .close "mean" [] (7.47835) 1.0e-05,
  .push [6.0],
  .close "mean" [] (7.1431) 1.0e-05,
  .push [4.0],
  .close "mean" [] (6.49616) 1.0e-05,
  .push [3.0],
  .close "mean" [] (5.83037) 1.0e-05,
  .push [2.0],
  .close "mean" [] (5.14573) 1.0e-05,
  .push [1.0],
  .close "mean" [] (4.44252) 1.0e-05] == []

-- test/decay/moment_suite.cpp:296 mean_float_suite::test_clear
#guard failures (decayMomentFloat 0.125) [
  .push [1.0],
  .eq "mean" [] (1.0),
  .clear,
  .eq "mean" [] (0.0)] == []

-- test/decay/moment_suite.cpp:321 variance_double_suite::test_ctor
#guard failures (decayVariance 0.125 0.25) [
  .eq "mean" [] (0.0),
  .eq "variance" [] (0.0)] == []

-- test/decay/moment_suite.cpp:328 variance_double_suite::test_same
#guard failures (decayVariance 0.125 0.25) [
  .push [1.0],
  .close "mean" [] (1.0) 1.0e-05,
  .close "variance" [] (0.0) 1.0e-05,
  .push [1.0],
  .close "mean" [] (1.0) 1.0e-05,
  .close "variance" [] (0.0) 1.0e-05,
  .push [1.0],
  .close "mean" [] (1.0) 1.0e-05,
  .close "variance" [] (0.0) 1.0e-05] == []

-- test/decay/moment_suite.cpp:343 variance_double_suite::test_linear_increase
#guard failures (decayVariance 0.125 0.25) [
  .push [1.0],
  .eq "mean" [] (1.0),
  .close "variance" [] (0.0) 1.0e-05,
  .push [2.0],
  .close "mean" [] (1.53333) 1.0e-05,
  .close "variance" [] (0.124444) 1.0e-05,
  .push [3.0],
  .close "mean" [] (2.08876) 1.0e-05,
  .close "variance" [] (0.429707) 1.0e-05,
  .push [4.0],
  .close "mean" [] (2.66608) 1.0e-05,
  .close "variance" [] (0.923291) 1.0e-05,
  .push [5.0],
  .close "mean" [] (3.26502) 1.0e-05,
  .close "variance" [] (1.60733) 1.0e-05,
  .push [6.0],
  .close "mean" [] (3.88525) 1.0e-05,
  .close "variance" [] (2.47861) 1.0e-05,
  .push [7.0],
  .close "mean" [] (4.52635) 1.0e-05,
  .close "variance" [] (3.52889) 1.0e-05,
  .push [8.0],
  .close "mean" [] (5.18786) 1.0e-05,
  .close "variance" [] (4.7455) 1.0e-05,
  .push [9.0],
  .close "mean" [] (5.86924) 1.0e-05,
  .close "variance" [] (6.11216) 1.0e-05,
  .push [10.0],
  .close "mean" [] (6.56991) 1.0e-05,
  .close "variance" [] (7.60984) 1.0e-05] == []

-- test/decay/moment_suite.cpp:379 variance_double_suite::test_linear_decrease
#guard failures (decayVariance 0.125 0.25) [
  .push [10.0],
  .eq "mean" [] (10.0),
  .close "variance" [] (0.0) 1.0e-05,
  .push [9.0],
  .close "mean" [] (9.46667) 1.0e-05,
  .close "variance" [] (0.124444) 1.0e-05,
  .push [8.0],
  .close "mean" [] (8.91124) 1.0e-05,
  .close "variance" [] (0.429707) 1.0e-05,
  .push [7.0],
  .close "mean" [] (8.33392) 1.0e-05,
  .close "variance" [] (0.923291) 1.0e-05,
  .push [6.0],
  .close "mean" [] (7.73498) 1.0e-05,
  .close "variance" [] (1.60733) 1.0e-05,
  .push [5.0],
  .close "mean" [] (7.11475) 1.0e-05,
  .close "variance" [] (2.47861) 1.0e-05,
  .push [4.0],
  .close "mean" [] (6.47365) 1.0e-05,
  .close "variance" [] (3.52889) 1.0e-05,
  .push [3.0],
  .close "mean" [] (5.81214) 1.0e-05,
  .close "variance" [] (4.7455) 1.0e-05,
  .push [2.0],
  .close "mean" [] (5.13076) 1.0e-05,
  .close "variance" [] (6.11216) 1.0e-05,
  .push [1.0],
  .close "mean" [] (4.43009) 1.0e-05,
  .close "variance" [] (7.60984) 1.0e-05] == []

-- test/decay/moment_suite.cpp:415 variance_double_suite::test_exponential_increase
#guard failures (decayVariance 0.125 0.25) [
  .push [1.0],
  .eq "mean" [] (1.0),
  .close "variance" [] (0.0) 0.0001,
  .push [10.0],
  .close "mean" [] (5.8) 0.0001,
  .close "variance" [] (10.08) 0.0001,
  .push [100.0],
  .close "mean" [] (41.4734) 0.0001,
  .close "variance" [] (1486.96) 0.0001,
  .push [1000.0],
  .close "mean" [] (331.01) 0.0001,
  .close "variance" [] (164617.0) 0.0001,
  .push [10000.0],
  .close "mean" [] (2812.32) 0.0001,
  .close "variance" [] (17044900.0) 0.0001,
  .push [100000.0],
  .close "mean" [] (24852.2) 0.0001,
  .close "variance" [] (1729330000.0) 0.0001,
  .push [1000000.0],
  .close "mean" [] (225565.0) 0.0001,
  .close "variance" [] (174265000000.0) 0.0001,
  .push [10000000.0],
  .close "mean" [] (2086960.0) 0.0001,
  .close "variance" [] (17521400000000.0) 0.0001,
  .push [100000000.0],
  .close "mean" [] (19587900.0) 0.0001,
  .close "variance" [] (1760540000000000.0) 0.0001,
  .push [1000000000.0],
  .close "mean" [] (185889000.0) 0.0001,
  .close "variance" [] (1.76876e+17) 0.0001] == []

-- test/decay/moment_suite.cpp:451 variance_double_suite::test_clear
#guard failures (decayVariance 0.125 0.25) [
  .push [0.0],
  .close "mean" [] (0.0) 1.0e-05,
  .close "variance" [] (0.0) 1.0e-05,
  .push [1.0],
  .close "mean" [] (0.533333) 1.0e-05,
  .close "variance" [] (0.124444) 1.0e-05,
  .clear,
  .eq "mean" [] (0.0),
  .eq "variance" [] (0.0)] == []

-- test/decay/moment_suite.cpp:483 skewness_double_suite::test_ctor
#guard failures (decaySkewness 0.125 0.25 0.25) [
  .eq "mean" [] (0.0),
  .eq "variance" [] (0.0),
  .eq "skewness" [] (0.0)] == []

-- test/decay/moment_suite.cpp:491 skewness_double_suite::test_same
#guard failures (decaySkewness 0.125 0.25 0.25) [
  .push [1.0],
  .eq "mean" [] (1.0),
  .eq "variance" [] (0.0),
  .eq "skewness" [] (0.0),
  .push [1.0],
  .eq "mean" [] (1.0),
  .eq "variance" [] (0.0),
  .eq "skewness" [] (0.0),
  .push [1.0],
  .eq "mean" [] (1.0),
  .eq "variance" [] (0.0),
  .eq "skewness" [] (0.0),
  .push [1.0],
  .eq "mean" [] (1.0),
  .eq "variance" [] (0.0),
  .eq "skewness" [] (0.0)] == []

-- test/decay/moment_suite.cpp:512 skewness_double_suite::test_linear_increase
#guard failures (decaySkewness 0.125 0.25 0.25) [
  .push [1.0],
  .eq "mean" [] (1.0),
  .eq "variance" [] (0.0),
  .close "skewness" [] (0.0) 1.0e-05,
  .push [2.0],
  .close "mean" [] (1.53333) 1.0e-05,
  .close "variance" [] (0.124444) 1.0e-05,
  .close "skewness" [] (1.32288) 1.0e-05,
  .push [3.0],
  .close "mean" [] (2.08876) 1.0e-05,
  .close "variance" [] (0.429707) 1.0e-05,
  .close "skewness" [] (1.27863) 1.0e-05,
  .push [4.0],
  .close "mean" [] (2.66608) 1.0e-05,
  .close "variance" [] (0.923291) 1.0e-05,
  .close "skewness" [] (1.23592) 1.0e-05,
  .push [5.0],
  .close "mean" [] (3.26502) 1.0e-05,
  .close "variance" [] (1.60733) 1.0e-05,
  .close "skewness" [] (1.20177) 1.0e-05,
  .push [6.0],
  .close "mean" [] (3.88525) 1.0e-05,
  .close "variance" [] (2.47861) 1.0e-05,
  .close "skewness" [] (1.1738) 1.0e-05,
  .push [7.0],
  .close "mean" [] (4.52635) 1.0e-05,
  .close "variance" [] (3.52889) 1.0e-05,
  .close "skewness" [] (1.15036) 1.0e-05,
  .push [8.0],
  .close "mean" [] (5.18786) 1.0e-05,
  .close "variance" [] (4.7455) 1.0e-05,
  .close "skewness" [] (1.13038) 1.0e-05,
  .push [9.0],
  .close "mean" [] (5.86924) 1.0e-05,
  .close "variance" [] (6.11216) 1.0e-05,
  .close "skewness" [] (1.1132) 1.0e-05,
  .push [10.0],
  .close "mean" [] (6.56991) 1.0e-05,
  .close "variance" [] (7.60984) 1.0e-05,
  .close "skewness" [] (1.09832) 1.0e-05] == []

-- test/decay/moment_suite.cpp:561 skewness_double_suite::test_exponential_increase
#guard failures (decaySkewness 0.125 0.25 0.25) [
  .push [1.0],
  .eq "mean" [] (1.0),
  .close "variance" [] (0.0) 1.0e-05,
  .close "skewness" [] (0.0) 1.0e-05,
  .push [10.0],
  .close "mean" [] (5.8) 1.0e-05,
  .close "variance" [] (10.08) 1.0e-05,
  .close "skewness" [] (1.32288) 1.0e-05,
  .push [100.0],
  .close "mean" [] (41.4734) 1.0e-05,
  .close "variance" [] (1486.96) 1.0e-05,
  .close "skewness" [] (1.51234) 1.0e-05,
  .push [1000.0],
  .close "mean" [] (331.01) 1.0e-05,
  .close "variance" [] (164617.0) 1.0e-05,
  .close "skewness" [] (1.64023) 1.0e-05,
  .push [10000.0],
  .close "mean" [] (2812.32) 1.0e-05,
  .close "variance" [] (17044900.0) 1.0e-05,
  .close "skewness" [] (1.73071) 1.0e-05,
  .push [100000.0],
  .close "mean" [] (24852.2) 1.0e-05,
  .close "variance" [] (1729330000.0) 1.0e-05,
  .close "skewness" [] (1.79586) 1.0e-05,
  .push [1000000.0],
  .close "mean" [] (225565.0) 1.0e-05,
  .close "variance" [] (174265000000.0) 1.0e-05,
  .close "skewness" [] (1.84332) 1.0e-05,
  .push [10000000.0],
  .close "mean" [] (2086960.0) 1.0e-05,
  .close "variance" [] (17521400000000.0) 1.0e-05,
  .close "skewness" [] (1.87816) 1.0e-05,
  .push [100000000.0],
  .close "mean" [] (19587900.0) 1.0e-05,
  .close "variance" [] (1760540000000000.0) 1.0e-05,
  .close "skewness" [] (1.9039) 1.0e-05,
  .push [1000000000.0],
  .close "mean" [] (185889000.0) 1.0e-05,
  .close "variance" [] (1.76876e+17) 1.0e-05,
  .close "skewness" [] (1.92298) 1.0e-05] == []

-- test/decay/moment_suite.cpp:608 skewness_double_suite::test_left_skew
#guard failures (decaySkewness 0.125 0.25 0.25) [
  .push [1.0],
  .eq "mean" [] (1.0),
  .eq "variance" [] (0.0),
  .eq "skewness" [] (0.0),
  .push [2.0],
  .close "mean" [] (1.53333) 1.0e-05,
  .close "variance" [] (0.124444) 1.0e-05,
  .close "skewness" [] (1.32288) 1.0e-05,
  .push [5.0],
  .close "mean" [] (2.84615) 1.0e-05,
  .close "variance" [] (2.07671) 1.0e-05,
  .close "skewness" [] (1.45479) 1.0e-05,
  .push [15.0],
  .close "mean" [] (6.5174) 1.0e-05,
  .close "variance" [] (27.632) 1.0e-05,
  .close "skewness" [] (1.55579) 1.0e-05] == []

-- test/decay/moment_suite.cpp:647 kurtosis_double_suite::test_ctor
#guard failures (decayKurtosis 0.125 0.25 0.25 0.25) [
  .eq "mean" [] (0.0),
  .eq "variance" [] (0.0),
  .eq "skewness" [] (0.0),
  .eq "kurtosis" [] (0.0)] == []

-- test/decay/moment_suite.cpp:656 kurtosis_double_suite::test_same
#guard failures (decayKurtosis 0.125 0.25 0.25 0.25) [
  .push [1.0],
  .eq "mean" [] (1.0),
  .eq "variance" [] (0.0),
  .eq "skewness" [] (0.0),
  .eq "kurtosis" [] (0.0),
  .push [1.0],
  .eq "mean" [] (1.0),
  .eq "variance" [] (0.0),
  .eq "skewness" [] (0.0),
  .eq "kurtosis" [] (0.0),
  .push [1.0],
  .eq "mean" [] (1.0),
  .eq "variance" [] (0.0),
  .eq "skewness" [] (0.0),
  .eq "kurtosis" [] (0.0)] == []

-- test/decay/moment_suite.cpp:676 kurtosis_double_suite::test_linear_increase
#guard failures (decayKurtosis 0.125 0.25 0.25 0.25) [
  .push [1.0],
  .eq "mean" [] (1.0),
  .eq "variance" [] (0.0),
  .eq "skewness" [] (0.0),
  .eq "kurtosis" [] (0.0),
  .push [2.0],
  .close "mean" [] (1.53333) 1.0e-05,
  .close "variance" [] (0.124444) 1.0e-05,
  .close "skewness" [] (1.32288) 1.0e-05,
  .close "kurtosis" [] (1.75) 1.0e-05,
  .push [3.0],
  .close "mean" [] (2.08876) 1.0e-05,
  .close "variance" [] (0.429707) 1.0e-05,
  .close "skewness" [] (1.27863) 1.0e-05,
  .close "kurtosis" [] (1.69807) 1.0e-05,
  .push [4.0],
  .close "mean" [] (2.66608) 1.0e-05,
  .close "variance" [] (0.923291) 1.0e-05,
  .close "skewness" [] (1.23592) 1.0e-05,
  .close "kurtosis" [] (1.59157) 1.0e-05,
  .push [5.0],
  .close "mean" [] (3.26502) 1.0e-05,
  .close "variance" [] (1.60733) 1.0e-05,
  .close "skewness" [] (1.20177) 1.0e-05,
  .close "kurtosis" [] (1.50264) 1.0e-05,
  .push [6.0],
  .close "mean" [] (3.88525) 1.0e-05,
  .close "variance" [] (2.47861) 1.0e-05,
  .close "skewness" [] (1.1738) 1.0e-05,
  .close "kurtosis" [] (1.42982) 1.0e-05,
  .push [7.0],
  .close "mean" [] (4.52635) 1.0e-05,
  .close "variance" [] (3.52889) 1.0e-05,
  .close "skewness" [] (1.15036) 1.0e-05,
  .close "kurtosis" [] (1.36931) 1.0e-05,
  .push [8.0],
  .close "mean" [] (5.18786) 1.0e-05,
  .close "variance" [] (4.7455) 1.0e-05,
  .close "skewness" [] (1.13038) 1.0e-05,
  .close "kurtosis" [] (1.31835) 1.0e-05,
  .push [9.0],
  .close "mean" [] (5.86924) 1.0e-05,
  .close "variance" [] (6.11216) 1.0e-05,
  .close "skewness" [] (1.1132) 1.0e-05,
  .close "kurtosis" [] (1.275) 1.0e-05,
  .push [10.0],
  .close "mean" [] (6.56991) 1.0e-05,
  .close "variance" [] (7.60984) 1.0e-05,
  .close "skewness" [] (1.09832) 1.0e-05,
  .close "kurtosis" [] (1.23788) 1.0e-05] == []

-- test/decay/moment_suite.cpp:735 kurtosis_double_suite::test_exponential_increase
#guard failures (decayKurtosis 0.125 0.25 0.25 0.25) [
  .push [1.0],
  .eq "mean" [] (1.0),
  .close "variance" [] (0.0) 1.0e-05,
  .close "skewness" [] (0.0) 1.0e-05,
  .close "kurtosis" [] (0.0) 1.0e-05,
  .push [10.0],
  .close "mean" [] (5.8) 1.0e-05,
  .close "variance" [] (10.08) 1.0e-05,
  .close "skewness" [] (1.32288) 1.0e-05,
  .close "kurtosis" [] (1.75) 1.0e-05,
  .push [100.0],
  .close "mean" [] (41.4734) 1.0e-05,
  .close "variance" [] (1486.96) 1.0e-05,
  .close "skewness" [] (1.51234) 1.0e-05,
  .close "kurtosis" [] (2.29479) 1.0e-05,
  .push [1000.0],
  .close "mean" [] (331.01) 1.0e-05,
  .close "variance" [] (164617.0) 1.0e-05,
  .close "skewness" [] (1.64023) 1.0e-05,
  .close "kurtosis" [] (2.70325) 1.0e-05,
  .push [10000.0],
  .close "mean" [] (2812.32) 1.0e-05,
  .close "variance" [] (17044900.0) 1.0e-05,
  .close "skewness" [] (1.73071) 1.0e-05,
  .close "kurtosis" [] (3.01147) 1.0e-05,
  .push [100000.0],
  .close "mean" [] (24852.2) 1.0e-05,
  .close "variance" [] (1729330000.0) 1.0e-05,
  .close "skewness" [] (1.79586) 1.0e-05,
  .close "kurtosis" [] (3.24334) 1.0e-05,
  .push [1000000.0],
  .close "mean" [] (225565.0) 1.0e-05,
  .close "variance" [] (174265000000.0) 1.0e-05,
  .close "skewness" [] (1.84332) 1.0e-05,
  .close "kurtosis" [] (3.41752) 1.0e-05,
  .push [10000000.0],
  .close "mean" [] (2086960.0) 1.0e-05,
  .close "variance" [] (17521400000000.0) 1.0e-05,
  .close "skewness" [] (1.87816) 1.0e-05,
  .close "kurtosis" [] (3.54827) 1.0e-05,
  .push [100000000.0],
  .close "mean" [] (19587900.0) 1.0e-05,
  .close "variance" [] (1760540000000000.0) 1.0e-05,
  .close "skewness" [] (1.9039) 1.0e-05,
  .close "kurtosis" [] (3.64638) 1.0e-05,
  .push [1000000000.0],
  .close "mean" [] (185889000.0) 1.0e-05,
  .close "variance" [] (1.76876e+17) 1.0e-05,
  .close "skewness" [] (1.92298) 1.0e-05,
  .close "kurtosis" [] (3.71998) 1.0e-05] == []

-- test/decay/moment_suite.cpp:792 kurtosis_double_suite::test_left_skew
#guard failures (decayKurtosis 0.125 0.25 0.25 0.25) [
  .push [1.0],
  .eq "mean" [] (1.0),
  .eq "variance" [] (0.0),
  .eq "skewness" [] (0.0),
  .eq "kurtosis" [] (0.0),
  .push [2.0],
  .close "mean" [] (1.53333) 1.0e-05,
  .close "variance" [] (0.124444) 1.0e-05,
  .close "skewness" [] (1.32288) 1.0e-05,
  .close "kurtosis" [] (1.75) 1.0e-05,
  .push [5.0],
  .close "mean" [] (2.84615) 1.0e-05,
  .close "variance" [] (2.07671) 1.0e-05,
  .close "skewness" [] (1.45479) 1.0e-05,
  .close "kurtosis" [] (2.16144) 1.0e-05,
  .push [15.0],
  .close "mean" [] (6.5174) 1.0e-05,
  .close "variance" [] (27.632) 1.0e-05,
  .close "skewness" [] (1.55579) 1.0e-05,
  .close "kurtosis" [] (2.48764) 1.0e-05] == []

-- test/interim/moment_suite.cpp:22 mean_api_suite::test_ctor
#guard failures (interimMoment 4) [
  .push [1.0],
  .flag "empty" false] == []

-- test/interim/moment_suite.cpp:47 mean_api_suite::test_clear
#guard failures (interimMoment 4) [
  .push [1.0],
  .push [2.0],
  .push [3.0],
  .push [4.0],
  .push [5.0],
  .eq "size" [] (4.0),
  .clear,
  .eq "size" [] (0.0)] == []

-- test/interim/moment_suite.cpp:60 mean_api_suite::test_capacity
#guard failures (interimMoment 4) [
  .eq "capacity" [] (4.0)] == []

-- test/interim/moment_suite.cpp:66 mean_api_suite::test_size
#guard failures (interimMoment 4) [
  .eq "size" [] (0.0),
  .push [1.0],
  .eq "size" [] (1.0),
  .push [2.0],
  .eq "size" [] (2.0),
  .push [3.0],
  .eq "size" [] (3.0),
  .push [4.0],
  .eq "size" [] (4.0),
  .push [5.0],
  .eq "size" [] (4.0)] == []

-- test/interim/moment_suite.cpp:82 mean_api_suite::test_empty
#guard failures (interimMoment 4) [
  .flag "empty" true,
  .push [1.0],
  .flag "empty" false] == []

-- test/interim/moment_suite.cpp:90 mean_api_suite::test_full
#guard failures (interimMoment 4) [
  .flag "full" false,
  .push [1.0],
  .push [2.0],
  .push [3.0],
  .flag "full" false,
  .push [4.0],
  .flag "full" true,
  .push [5.0],
  .flag "full" true] == []

-- test/interim/moment_suite.cpp:121 mean_double_suite::test_same
#guard failures (interimMoment 4) [
  .push [1.0],
  .eq "size" [] (1.0),
  .eq "mean" [] (1.0),
  .push [1.0],
  .eq "size" [] (2.0),
  .eq "mean" [] (1.0),
  .push [1.0],
  .eq "size" [] (3.0),
  .eq "mean" [] (1.0),
  .push [1.0],
  .eq "size" [] (4.0),
  .eq "mean" [] (1.0),
  .push [1.0],
  .eq "size" [] (4.0),
  .eq "mean" [] (1.0)] == []

-- test/interim/moment_suite.cpp:146 mean_double_suite::test_linear_increase
#guard failures (interimMoment 4) [
  .push [1.0],
  .eq "size" [] (1.0),
  .eq "mean" [] (1.0),
  .push [2.0],
  .eq "size" [] (2.0),
  .eq "mean" [] (1.5),
  .push [3.0],
  .eq "size" [] (3.0),
  .eq "mean" [] (2.0),
  .push [4.0],
  .eq "size" [] (4.0),
  .eq "mean" [] (2.5),
  .push [5.0],
  .eq "size" [] (4.0),
  .eq "mean" [] (3.5),
  .push [6.0],
  .eq "size" [] (4.0),
  .eq "mean" [] (4.5)] == []

-- test/interim/moment_suite.cpp:177 mean_double_suite::test_linear_increase_from_offset
#guard failures (interimMoment 4) [
  .push [10.0],
  .eq "mean" [] (10.0),
  .push [11.0],
  .eq "mean" [] (10.5),
  .push [12.0],
  .eq "mean" [] (11.0),
  .push [13.0],
  .eq "mean" [] (11.5),
  .push [14.0],
  .eq "mean" [] (12.5),
  .push [15.0],
  .eq "mean" [] (13.5)] == []

-- test/interim/moment_suite.cpp:194 mean_double_suite::test_linear_decrease
#guard failures (interimMoment 4) [
  .push [10.0],
  .eq "mean" [] (10.0),
  .push [9.0],
  .eq "mean" [] (9.5),
  .push [8.0],
  .eq "mean" [] (9.0),
  .push [7.0],
  .eq "mean" [] (8.5),
  .push [6.0],
  .eq "mean" [] (7.5),
  .push [5.0],
  .eq "mean" [] (6.5)] == []

-- test/interim/moment_suite.cpp:226 variance_api_suite::test_ctor
#guard failures (interimVariance 4) [
  .push [1.0],
  .flag "empty" false] == []

-- test/interim/moment_suite.cpp:251 variance_api_suite::test_clear
#guard failures (interimVariance 4) [
  .push [1.0],
  .push [2.0],
  .push [3.0],
  .push [4.0],
  .push [5.0],
  .eq "size" [] (4.0),
  .clear,
  .eq "size" [] (0.0)] == []

-- test/interim/moment_suite.cpp:264 variance_api_suite::test_capacity
#guard failures (interimVariance 4) [
  .eq "capacity" [] (4.0)] == []

-- test/interim/moment_suite.cpp:270 variance_api_suite::test_size
#guard failures (interimVariance 4) [
  .eq "size" [] (0.0),
  .push [1.0],
  .eq "size" [] (1.0),
  .push [2.0],
  .eq "size" [] (2.0),
  .push [3.0],
  .eq "size" [] (3.0),
  .push [4.0],
  .eq "size" [] (4.0),
  .push [5.0],
  .eq "size" [] (4.0)] == []

-- test/interim/moment_suite.cpp:286 variance_api_suite::test_empty
#guard failures (interimVariance 4) [
  .flag "empty" true,
  .push [1.0],
  .flag "empty" false] == []

-- test/interim/moment_suite.cpp:294 variance_api_suite::test_full
#guard failures (interimVariance 4) [
  .flag "full" false,
  .push [1.0],
  .push [2.0],
  .push [3.0],
  .flag "full" false,
  .push [4.0],
  .flag "full" true,
  .push [5.0],
  .flag "full" true] == []

-- test/interim/moment_suite.cpp:325 variance_double_suite::test_linear_increase
#guard failures (interimVariance 4) [
  .push [1.0],
  .eq "mean" [] (1.0),
  .close "variance" [] (0.0) 1.0e-05,
  .push [2.0],
  .eq "mean" [] (1.5),
  .close "variance" [] (0.25) 1.0e-05,
  .push [3.0],
  .eq "mean" [] (2.0),
  .close "variance" [] (0.666667) 1.0e-05,
  .push [4.0],
  .eq "mean" [] (2.5),
  .close "variance" [] (1.25) 1.0e-05,
  .push [5.0],
  .eq "mean" [] (3.5),
  .close "variance" [] (1.25) 1.0e-05,
  .push [6.0],
  .eq "mean" [] (4.5),
  .close "variance" [] (1.06818) 1.0e-05,
  .push [7.0],
  .eq "mean" [] (5.5),
  .close "variance" [] (0.958333) 1.0e-05,
  .push [8.0],
  .eq "mean" [] (6.5),
  .close "variance" [] (1.25) 1.0e-05,
  .push [9.0],
  .eq "mean" [] (7.5),
  .close "variance" [] (1.25) 1.0e-05] == []

-- test/interim/moment_suite.cpp:369 variance_double_suite::test_scatter
#guard failures (interimVariance 4) [
  .push [1.0],
  .eq "mean" [] (1.0),
  .eq "variance" [] (0.0),
  .push [3.0],
  .close "mean" [] (2.0) 1.0e-05,
  .close "variance" [] (1.0) 1.0e-05,
  .push [0.0],
  .close "mean" [] (1.33333) 1.0e-05,
  .close "variance" [] (1.55556) 1.0e-05,
  .push [5.0],
  .close "mean" [] (2.25) 1.0e-05,
  .close "variance" [] (3.6875) 1.0e-05,
  .push [2.0],
  .close "mean" [] (2.15) 1.0e-05,
  .close "variance" [] (3.6875) 1.0e-05,
  .push [3.0],
  .close "mean" [] (2.41667) 1.0e-05,
  .close "variance" [] (3.0625) 1.0e-05,
  .push [4.0],
  .close "mean" [] (2.89286) 1.0e-05,
  .close "variance" [] (2.17708) 1.0e-05,
  .push [1.0],
  .close "mean" [] (2.5) 1.0e-05,
  .close "variance" [] (1.59821) 1.0e-05] == []

-- test/interim/moment_suite.cpp:422 skewness_api_suite::test_ctor
#guard failures (interimSkewness 4) [
  .push [1.0],
  .flag "empty" false] == []

-- test/interim/moment_suite.cpp:447 skewness_api_suite::test_clear
#guard failures (interimSkewness 4) [
  .push [1.0],
  .push [2.0],
  .push [3.0],
  .push [4.0],
  .push [5.0],
  .eq "size" [] (4.0),
  .clear,
  .eq "size" [] (0.0)] == []

-- test/interim/moment_suite.cpp:460 skewness_api_suite::test_capacity
#guard failures (interimSkewness 4) [
  .eq "capacity" [] (4.0)] == []

-- test/interim/moment_suite.cpp:466 skewness_api_suite::test_size
#guard failures (interimSkewness 4) [
  .eq "size" [] (0.0),
  .push [1.0],
  .eq "size" [] (1.0),
  .push [2.0],
  .eq "size" [] (2.0),
  .push [3.0],
  .eq "size" [] (3.0),
  .push [4.0],
  .eq "size" [] (4.0),
  .push [5.0],
  .eq "size" [] (4.0)] == []

-- test/interim/moment_suite.cpp:482 skewness_api_suite::test_empty
#guard failures (interimSkewness 4) [
  .flag "empty" true,
  .push [1.0],
  .flag "empty" false] == []

-- test/interim/moment_suite.cpp:490 skewness_api_suite::test_full
#guard failures (interimSkewness 4) [
  .flag "full" false,
  .push [1.0],
  .push [2.0],
  .push [3.0],
  .flag "full" false,
  .push [4.0],
  .flag "full" true,
  .push [5.0],
  .flag "full" true] == []

-- test/interim/moment_suite.cpp:521 skewness_double_suite::test_linear_increase
#guard failures (interimSkewness 4) [
  .push [1.0],
  .eq "mean" [] (1.0),
  .close "variance" [] (0.0) 1.0e-05,
  .close "skewness" [] (0.0) 1.0e-05,
  .push [2.0],
  .eq "mean" [] (1.5),
  .close "variance" [] (0.25) 1.0e-05,
  .close "skewness" [] (0.0) 1.0e-05,
  .push [3.0],
  .eq "mean" [] (2.0),
  .close "variance" [] (0.666667) 1.0e-05,
  .close "skewness" [] (0.0) 1.0e-05,
  .push [4.0],
  .eq "mean" [] (2.5),
  .close "variance" [] (1.25) 1.0e-05,
  .close "skewness" [] (0.0) 1.0e-05,
  .push [5.0],
  .eq "mean" [] (3.5),
  .close "variance" [] (1.25) 1.0e-05,
  .close "skewness" [] (0.0) 1.0e-05,
  .push [6.0],
  .eq "mean" [] (4.5),
  .close "variance" [] (1.06818) 1.0e-05,
  .close "skewness" [] (0.0) 1.0e-05,
  .push [7.0],
  .eq "mean" [] (5.5),
  .close "variance" [] (0.958333) 1.0e-05,
  .close "skewness" [] (0.0) 1.0e-05,
  .push [8.0],
  .eq "mean" [] (6.5),
  .close "variance" [] (1.25) 1.0e-05,
  .close "skewness" [] (0.0) 1.0e-05,
  .push [9.0],
  .eq "mean" [] (7.5),
  .close "variance" [] (1.25) 1.0e-05,
  .close "skewness" [] (0.0) 1.0e-05] == []

-- test/interim/moment_suite.cpp:574 skewness_double_suite::test_scatter
#guard failures (interimSkewness 4) [
  .push [1.0],
  .eq "mean" [] (1.0),
  .eq "variance" [] (0.0),
  .closeAbs "skewness" [] (0.0) 1.0e-05 1.0e-05,
  .push [3.0],
  .closeAbs "mean" [] (2.0) 1.0e-05 1.0e-05,
  .closeAbs "variance" [] (1.0) 1.0e-05 1.0e-05,
  .closeAbs "skewness" [] (0.0) 1.0e-05 1.0e-05,
  .push [0.0],
  .closeAbs "mean" [] (1.33333) 1.0e-05 1.0e-05,
  .closeAbs "variance" [] (1.55556) 1.0e-05 1.0e-05,
  .closeAbs "skewness" [] (0.3818) 1.0e-05 1.0e-05,
  .push [5.0],
  .closeAbs "mean" [] (2.25) 1.0e-05 1.0e-05,
  .closeAbs "variance" [] (3.6875) 1.0e-05 1.0e-05,
  .closeAbs "skewness" [] (0.27803) 1.0e-05 1.0e-05,
  .push [7.0],
  .closeAbs "mean" [] (4.15) 1.0e-05 1.0e-05,
  .closeAbs "variance" [] (3.6875) 1.0e-05 1.0e-05,
  .closeAbs "skewness" [] (0.27803) 1.0e-05 1.0e-05,
  .push [1.0],
  .closeAbs "mean" [] (3.41667) 1.0e-05 1.0e-05,
  .closeAbs "variance" [] (4.65341) 1.0e-05 1.0e-05,
  .closeAbs "skewness" [] (0.16682) 1.0e-05 1.0e-05,
  .push [4.0],
  .closeAbs "mean" [] (3.75) 1.0e-05 1.0e-05,
  .closeAbs "variance" [] (4.84375) 1.0e-05 1.0e-05,
  .closeAbs "skewness" [] (0.09268) 1.0e-05 1.0e-05,
  .push [1.0],
  .closeAbs "mean" [] (3.25) 1.0e-05 1.0e-05,
  .closeAbs "variance" [] (5.83036) 1.0e-05 1.0e-05,
  .closeAbs "skewness" [] (0.46262) 1.0e-05 1.0e-05] == []

-- test/interim/moment_suite.cpp:635 kurtosis_api_suite::test_ctor
#guard failures (interimKurtosis 4) [
  .push [1.0],
  .flag "empty" false] == []

-- test/interim/moment_suite.cpp:660 kurtosis_api_suite::test_clear
#guard failures (interimKurtosis 4) [
  .push [1.0],
  .push [2.0],
  .push [3.0],
  .push [4.0],
  .push [5.0],
  .eq "size" [] (4.0),
  .clear,
  .eq "size" [] (0.0)] == []

-- test/interim/moment_suite.cpp:673 kurtosis_api_suite::test_capacity
#guard failures (interimKurtosis 4) [
  .eq "capacity" [] (4.0)] == []

-- test/interim/moment_suite.cpp:679 kurtosis_api_suite::test_size
#guard failures (interimKurtosis 4) [
  .eq "size" [] (0.0),
  .push [1.0],
  .eq "size" [] (1.0),
  .push [2.0],
  .eq "size" [] (2.0),
  .push [3.0],
  .eq "size" [] (3.0),
  .push [4.0],
  .eq "size" [] (4.0),
  .push [5.0],
  .eq "size" [] (4.0)] == []

-- test/interim/moment_suite.cpp:695 kurtosis_api_suite::test_empty
#guard failures (interimKurtosis 4) [
  .flag "empty" true,
  .push [1.0],
  .flag "empty" false] == []

-- test/interim/moment_suite.cpp:703 kurtosis_api_suite::test_full
#guard failures (interimKurtosis 4) [
  .flag "full" false,
  .push [1.0],
  .push [2.0],
  .push [3.0],
  .flag "full" false,
  .push [4.0],
  .flag "full" true,
  .push [5.0],
  .flag "full" true] == []

-- test/interim/moment_suite.cpp:734 kurtosis_double_suite::test_linear_increase
#guard failures (interimKurtosis 4) [
  .push [1.0],
  .eq "mean" [] (1.0),
  .close "variance" [] (0.0) 1.0e-05,
  .close "skewness" [] (0.0) 1.0e-05,
  .close "kurtosis" [] (0.0) 1.0e-05,
  .push [2.0],
  .eq "mean" [] (1.5),
  .close "variance" [] (0.25) 1.0e-05,
  .close "skewness" [] (0.0) 1.0e-05,
  .close "kurtosis" [] (1.0) 1.0e-05,
  .push [3.0],
  .eq "mean" [] (2.0),
  .close "variance" [] (0.666667) 1.0e-05,
  .close "skewness" [] (0.0) 1.0e-05,
  .close "kurtosis" [] (1.5) 1.0e-05,
  .push [4.0],
  .eq "mean" [] (2.5),
  .close "variance" [] (1.25) 1.0e-05,
  .close "skewness" [] (0.0) 1.0e-05,
  .close "kurtosis" [] (1.64) 1.0e-05,
  .push [5.0],
  .eq "mean" [] (3.5),
  .close "variance" [] (1.25) 1.0e-05,
  .close "skewness" [] (0.0) 1.0e-05,
  .close "kurtosis" [] (1.64) 1.0e-05,
  .push [6.0],
  .eq "mean" [] (4.5),
  .close "variance" [] (1.06818) 1.0e-05,
  .close "skewness" [] (0.0) 1.0e-05,
  .close "kurtosis" [] (1.384) 1.0e-05,
  .push [7.0],
  .eq "mean" [] (5.5),
  .close "variance" [] (0.958333) 1.0e-05,
  .close "skewness" [] (0.0) 1.0e-05,
  .close "kurtosis" [] (1.54667) 1.0e-05,
  .push [8.0],
  .eq "mean" [] (6.5),
  .close "variance" [] (1.25) 1.0e-05,
  .close "skewness" [] (0.0) 1.0e-05,
  .close "kurtosis" [] (1.64) 1.0e-05,
  .push [9.0],
  .eq "mean" [] (7.5),
  .close "variance" [] (1.25) 1.0e-05,
  .close "skewness" [] (0.0) 1.0e-05,
  .close "kurtosis" [] (1.64) 1.0e-05] == []

-- test/interim/moment_suite.cpp:796 kurtosis_double_suite::test_scatter
#guard failures (interimKurtosis 4) [
  .push [1.0],
  .eq "mean" [] (1.0),
  .eq "variance" [] (0.0),
  .closeAbs "skewness" [] (0.0) 1.0e-05 1.0e-05,
  .closeAbs "kurtosis" [] (0.0) 1.0e-05 1.0e-05,
  .push [3.0],
  .closeAbs "mean" [] (2.0) 1.0e-05 1.0e-05,
  .closeAbs "variance" [] (1.0) 1.0e-05 1.0e-05,
  .closeAbs "skewness" [] (0.0) 1.0e-05 1.0e-05,
  .closeAbs "kurtosis" [] (1.0) 1.0e-05 1.0e-05,
  .push [0.0],
  .closeAbs "mean" [] (1.33333) 1.0e-05 1.0e-05,
  .closeAbs "variance" [] (1.55556) 1.0e-05 1.0e-05,
  .closeAbs "skewness" [] (0.3818) 1.0e-05 1.0e-05,
  .closeAbs "kurtosis" [] (1.5) 1.0e-05 1.0e-05,
  .push [5.0],
  .closeAbs "mean" [] (2.25) 1.0e-05 1.0e-05,
  .closeAbs "variance" [] (3.6875) 1.0e-05 1.0e-05,
  .closeAbs "skewness" [] (0.27803) 1.0e-05 1.0e-05,
  .closeAbs "kurtosis" [] (1.5734) 1.0e-05 1.0e-05,
  .push [7.0],
  .closeAbs "mean" [] (4.15) 1.0e-05 1.0e-05,
  .closeAbs "variance" [] (3.6875) 1.0e-05 1.0e-05,
  .closeAbs "skewness" [] (0.27803) 1.0e-05 1.0e-05,
  .closeAbs "kurtosis" [] (1.5734) 1.0e-05 1.0e-05,
  .push [1.0],
  .closeAbs "mean" [] (3.41667) 1.0e-05 1.0e-05,
  .closeAbs "variance" [] (4.65341) 1.0e-05 1.0e-05,
  .closeAbs "skewness" [] (0.16682) 1.0e-05 1.0e-05,
  .closeAbs "kurtosis" [] (1.34404) 1.0e-05 1.0e-05,
  .push [4.0],
  .closeAbs "mean" [] (3.75) 1.0e-05 1.0e-05,
  .closeAbs "variance" [] (4.84375) 1.0e-05 1.0e-05,
  .closeAbs "skewness" [] (0.09268) 1.0e-05 1.0e-05,
  .closeAbs "kurtosis" [] (1.52447) 1.0e-05 1.0e-05,
  .push [1.0],
  .closeAbs "mean" [] (3.25) 1.0e-05 1.0e-05,
  .closeAbs "variance" [] (5.83036) 1.0e-05 1.0e-05,
  .closeAbs "skewness" [] (0.46262) 1.0e-05 1.0e-05,
  .closeAbs "kurtosis" [] (1.62028) 1.0e-05 1.0e-05] == []

-- test/interim/comoment_suite.cpp:22 api_suite::test_ctor
#guard failures (interimCovariance 4) [
  .push [1.0, 1.0],
  .flag "empty" false] == []

-- test/interim/comoment_suite.cpp:47 api_suite::test_clear
#guard failures (interimCovariance 4) [
  .push [1.0, 1.0],
  .eq "size" [] (1.0),
  .clear,
  .eq "size" [] (0.0)] == []

-- test/interim/comoment_suite.cpp:57 api_suite::test_capacity
#guard failures (interimCovariance 4) [
  .eq "capacity" [] (4.0)] == []

-- test/interim/comoment_suite.cpp:63 api_suite::test_size
#guard failures (interimCovariance 4) [
  .eq "size" [] (0.0),
  .push [1.0, 1.0],
  .eq "size" [] (1.0),
  .push [2.0, 2.0],
  .eq "size" [] (2.0),
  .push [3.0, 3.0],
  .eq "size" [] (3.0),
  .push [4.0, 4.0],
  .eq "size" [] (4.0),
  .push [5.0, 5.0],
  .eq "size" [] (4.0)] == []

-- test/interim/comoment_suite.cpp:79 api_suite::test_empty
#guard failures (interimCovariance 4) [
  .flag "empty" true,
  .push [1.0, 1.0],
  .flag "empty" false] == []

-- test/interim/comoment_suite.cpp:87 api_suite::test_full
#guard failures (interimCovariance 4) [
  .flag "full" false,
  .push [1.0, 1.0],
  .push [2.0, 2.0],
  .push [3.0, 3.0],
  .flag "full" false,
  .push [4.0, 4.0],
  .flag "full" true,
  .push [5.0, 5.0],
  .flag "full" true] == []

-- test/interim/comoment_suite.cpp:118 double_4_suite::test_same_no_increment
#guard failures (interimCovariance 4) [
  .push [2.0, 2.0],
  .eq "variance" [] (0.0),
  .push [2.0, 2.0],
  .eq "variance" [] (0.0),
  .push [2.0, 2.0],
  .eq "variance" [] (0.0),
  .push [2.0, 2.0],
  .eq "variance" [] (0.0),
  .push [2.0, 2.0],
  .eq "variance" [] (0.0),
  .push [2.0, 2.0],
  .eq "variance" [] (0.0),
  .push [2.0, 2.0],
  .eq "variance" [] (0.0),
  .push [2.0, 2.0],
  .eq "variance" [] (0.0)] == []

-- test/interim/comoment_suite.cpp:148 double_4_suite::test_same_increment_by_one
#guard failures (interimCovariance 4) [
  .push [1.0, 1.0],
  .eq "variance" [] (0.0),
  .push [2.0, 2.0],
  .close "variance" [] (0.25) 1.0e-05,
  .push [3.0, 3.0],
  .close "variance" [] (0.666667) 1.0e-05,
  .push [4.0, 4.0],
  .close "variance" [] (1.25) 1.0e-05,
  .push [5.0, 5.0],
  .close "variance" [] (1.25) 1.0e-05,
  .push [6.0, 6.0],
  .close "variance" [] (1.06818) 1.0e-05,
  .push [7.0, 7.0],
  .close "variance" [] (0.95833) 1.0e-05,
  .push [8.0, 8.0],
  .close "variance" [] (1.25) 1.0e-05] == []

-- test/interim/comoment_suite.cpp:179 double_4_suite::test_same_increment_by_half
#guard failures (interimCovariance 4) [
  .push [1.0, 1.0],
  .eq "variance" [] (0.0),
  .push [1.5, 1.5],
  .close "variance" [] (0.0625) 1.0e-05,
  .push [2.0, 2.0],
  .close "variance" [] (0.166667) 1.0e-05,
  .push [2.5, 2.5],
  .close "variance" [] (0.3125) 1.0e-05,
  .push [3.0, 3.0],
  .close "variance" [] (0.3125) 1.0e-05,
  .push [3.5, 3.5],
  .close "variance" [] (0.267045) 1.0e-05,
  .push [4.0, 4.0],
  .close "variance" [] (0.239583) 1.0e-05,
  .push [4.5, 4.5],
  .close "variance" [] (0.3125) 1.0e-05] == []

-- test/interim/comoment_suite.cpp:210 double_4_suite::test_exponential_increase
#guard failures (interimCovariance 4) [
  .push [1.0, 1.0],
  .eq "variance" [] (0.0),
  .push [10.0, 10.0],
  .close "variance" [] (20.25) 1.0e-05,
  .push [100.0, 100.0],
  .close "variance" [] (1998.0) 1.0e-05,
  .push [1000.0, 1000.0],
  .close "variance" [] (175380.0) 1.0e-05,
  .push [10000.0, 10000.0],
  .close "variance" [] (175380.0) 1.0e-05,
  .push [100000.0, 100000.0],
  .close "variance" [] (368325000.0) 1.0e-05,
  .push [1000000.0, 1000000.0],
  .close "variance" [] (99900100000.0) 1.0e-05] == []

-- test/interim/regression_suite.cpp:22 double_suite::test_ctor
#guard failures (interimRegression 4) [
  .eq "size" [] (0.0)] == []

-- test/interim/regression_suite.cpp:28 double_suite::test_same
#guard failures (interimRegression 4) [
  .push [1.0, 1.0],
  .eq "size" [] (1.0),
  .close "slope" [] (0.0) 1.0e-05,
  .close "at" [0.0] (1.0) 1.0e-05,
  .push [1.0, 1.0],
  .eq "size" [] (2.0),
  .close "slope" [] (0.0) 1.0e-05,
  .close "at" [0.0] (1.0) 1.0e-05,
  .push [1.0, 1.0],
  .eq "size" [] (3.0),
  .close "slope" [] (0.0) 1.0e-05,
  .close "at" [0.0] (1.0) 1.0e-05,
  .push [1.0, 1.0],
  .eq "size" [] (4.0),
  .close "slope" [] (0.0) 1.0e-05,
  .close "at" [0.0] (1.0) 1.0e-05,
  .push [1.0, 1.0],
  .eq "size" [] (4.0),
  .close "slope" [] (0.0) 1.0e-05,
  .close "at" [0.0] (1.0) 1.0e-05,
  .push [1.0, 1.0],
  .eq "size" [] (4.0),
  .close "slope" [] (0.0) 1.0e-05,
  .close "at" [0.0] (1.0) 1.0e-05] == []

-- test/interim/regression_suite.cpp:66 double_suite::test_linear_increase_slope_1
#guard failures (interimRegression 4) [
  .push [0.0, 0.0],
  .close "slope" [] (0.0) 1.0e-05,
  .close "at" [0.0] (0.0) 1.0e-05,
  .push [1.0, 1.0],
  .close "slope" [] (1.0) 1.0e-05,
  .close "at" [0.0] (0.0) 1.0e-05,
  .close "at" [1.0] (1.0) 1.0e-05,
  .push [2.0, 2.0],
  .close "slope" [] (1.0) 1.0e-05,
  .close "at" [0.0] (0.0) 1.0e-05,
  .close "at" [2.0] (2.0) 1.0e-05,
  .push [3.0, 3.0],
  .close "slope" [] (1.0) 1.0e-05,
  .close "at" [0.0] (0.0) 1.0e-05,
  .close "at" [3.0] (3.0) 1.0e-05,
  .push [4.0, 4.0],
  .close "slope" [] (1.0) 1.0e-05,
  .close "at" [0.0] (0.0) 1.0e-05,
  .close "at" [4.0] (4.0) 1.0e-05,
  .push [5.0, 5.0],
  .close "slope" [] (1.0) 1.0e-05,
  .close "at" [0.0] (0.0) 1.0e-05,
  .close "at" [5.0] (5.0) 1.0e-05,
  .push [6.0, 6.0],
  .close "slope" [] (1.0) 1.0e-05,
  .close "at" [0.0] (0.0) 1.0e-05,
  .close "at" [6.0] (6.0) 1.0e-05,
  .push [7.0, 7.0],
  .close "slope" [] (1.0) 1.0e-05,
  .close "at" [0.0] (0.0) 1.0e-05,
  .close "at" [7.0] (7.0) 1.0e-05,
  .push [8.0, 8.0],
  .close "slope" [] (1.0) 1.0e-05,
  .close "at" [0.0] (0.0) 1.0e-05,
  .close "at" [8.0] (8.0) 1.0e-05] == []

-- test/interim/regression_suite.cpp:118 double_suite::test_linear_increase_slope_2
#guard failures (interimRegression 4) [
  .push [0.0, 0.0],
  .close "slope" [] (0.0) 1.0e-05,
  .close "at" [0.0] (0.0) 1.0e-05,
  .push [1.0, 2.0],
  .close "slope" [] (2.0) 1.0e-05,
  .close "at" [0.0] (0.0) 1.0e-05,
  .close "at" [1.0] (2.0) 1.0e-05,
  .push [2.0, 4.0],
  .close "slope" [] (2.0) 1.0e-05,
  .close "at" [0.0] (0.0) 1.0e-05,
  .close "at" [2.0] (4.0) 1.0e-05,
  .push [3.0, 6.0],
  .close "slope" [] (2.0) 1.0e-05,
  .close "at" [0.0] (0.0) 1.0e-05,
  .close "at" [3.0] (6.0) 1.0e-05,
  .push [4.0, 8.0],
  .close "slope" [] (2.0) 1.0e-05,
  .close "at" [0.0] (0.0) 1.0e-05,
  .close "at" [4.0] (8.0) 1.0e-05,
  .push [5.0, 10.0],
  .close "slope" [] (2.0) 1.0e-05,
  .close "at" [0.0] (0.0) 1.0e-05,
  .close "at" [5.0] (10.0) 1.0e-05,
  .push [6.0, 12.0],
  .close "slope" [] (2.0) 1.0e-05,
  .close "at" [0.0] (0.0) 1.0e-05,
  .close "at" [6.0] (12.0) 1.0e-05,
  .push [7.0, 14.0],
  .close "slope" [] (2.0) 1.0e-05,
  .close "at" [0.0] (0.0) 1.0e-05,
  .close "at" [7.0] (14.0) 1.0e-05,
  .push [8.0, 16.0],
  .close "slope" [] (2.0) 1.0e-05,
  .close "at" [0.0] (0.0) 1.0e-05,
  .close "at" [8.0] (16.0) 1.0e-05] == []

-- test/interim/regression_suite.cpp:170 double_suite::test_linear_increase_slope_1_absolute_error
#guard failures (interimRegression 4) [
  .push [0.0, 0.0],
  .close "slope" [] (0.0) 1.0e-05,
  .close "at" [0.0] (0.0) 1.0e-05,
  .push [1.0, 1.01],
  .close "slope" [] (1.01) 1.0e-05,
  .close "at" [0.0] (0.0) 1.0e-05,
  .close "at" [1.0] (1.01) 1.0e-05,
  .push [2.0, 1.99],
  .close "slope" [] (0.995) 1.0e-05,
  .close "at" [0.0] (0.005) 1.0e-05,
  .close "at" [2.0] (1.995) 1.0e-05,
  .push [3.0, 3.01],
  .close "slope" [] (1.001) 1.0e-05,
  .close "at" [0.0] (0.001) 1.0e-05,
  .close "at" [3.0] (3.004) 1.0e-05,
  .push [4.0, 3.99],
  .close "slope" [] (1.001) 1.0e-05,
  .close "at" [0.0] (-0.005) 1.0e-05,
  .close "at" [4.0] (3.999) 1.0e-05,
  .push [5.0, 5.01],
  .close "slope" [] (1.00181) 1.0e-05,
  .close "at" [0.0] (-0.00549645) 1.0e-05,
  .close "at" [5.0] (5.00355) 1.0e-05,
  .push [6.0, 5.99],
  .close "slope" [] (1.00065) 1.0e-05,
  .close "at" [0.0] (-0.0054348) 1.0e-05,
  .close "at" [6.0] (5.99848) 1.0e-05,
  .push [7.0, 7.01],
  .close "slope" [] (1.00357) 1.0e-05,
  .close "at" [0.0] (-0.019643) 1.0e-05,
  .close "at" [7.0] (7.00536) 1.0e-05,
  .push [8.0, 7.99],
  .close "slope" [] (1.004) 1.0e-05,
  .close "at" [0.0] (-0.03) 1.0e-05,
  .close "at" [8.0] (8.002) 1.0e-05,
  .push [9.0, 9.01],
  .close "slope" [] (1.00468) 1.0e-05,
  .close "at" [0.0] (-0.0351064) 1.0e-05,
  .close "at" [9.0] (9.00702) 1.0e-05,
  .push [10.0, 9.99],
  .close "slope" [] (1.00261) 1.0e-05,
  .close "at" [0.0] (-0.0250311) 1.0e-05,
  .close "at" [10.0] (10.0011) 1.0e-05,
  .push [11.0, 11.01],
  .close "slope" [] (1.004) 1.0e-05,
  .close "at" [0.0] (-0.038) 1.0e-05,
  .close "at" [11.0] (11.006) 1.0e-05,
  .push [12.0, 11.99],
  .close "slope" [] (1.004) 1.0e-05,
  .close "at" [0.0] (-0.046) 1.0e-05,
  .close "at" [12.0] (12.002) 1.0e-05,
  .push [13.0, 13.01],
  .close "slope" [] (1.00468) 1.0e-05,
  .close "at" [0.0] (-0.05383) 1.0e-05,
  .close "at" [13.0] (13.007) 1.0e-05,
  .push [14.0, 13.99],
  .close "slope" [] (1.00261) 1.0e-05,
  .close "at" [0.0] (-0.035466) 1.0e-05,
  .close "at" [14.0] (14.0011) 1.0e-05] == []

-- test/interim/regression_suite.cpp:255 double_suite::test_linear_increase_slope_1_relative_error
#guard failures (interimRegression 4) [
  .push [0.0, 0.0],
  .close "slope" [] (0.0) 1.0e-05,
  .close "at" [0.0] (0.0) 1.0e-05,
  .push [1.0, 1.01],
  .close "slope" [] (1.01) 1.0e-05,
  .close "at" [0.0] (0.0) 1.0e-05,
  .close "at" [1.0] (1.01) 1.0e-05,
  .push [2.0, 1.98],
  .close "slope" [] (0.99) 1.0e-05,
  .close "at" [0.0] (0.0066667) 1.0e-05,
  .close "at" [2.0] (1.98667) 1.0e-05,
  .push [3.0, 3.0300000000000002],
  .close "slope" [] (1.006) 1.0e-05,
  .close "at" [0.0] (-0.004) 1.0e-05,
  .close "at" [3.0] (3.014) 1.0e-05,
  .push [4.0, 3.96],
  .close "slope" [] (1.006) 1.0e-05,
  .close "at" [0.0] (-0.028) 1.0e-05,
  .close "at" [4.0] (3.996) 1.0e-05,
  .push [5.0, 5.05],
  .close "slope" [] (1.00957) 1.0e-05,
  .close "at" [0.0] (-0.0285106) 1.0e-05,
  .close "at" [5.0] (5.01936) 1.0e-05,
  .push [6.0, 5.9399999999999995],
  .close "slope" [] (1.00043) 1.0e-05,
  .close "at" [0.0] (-0.015528) 1.0e-05,
  .close "at" [6.0] (5.98708) 1.0e-05,
  .push [7.0, 7.07],
  .close "slope" [] (1.01971) 1.0e-05,
  .close "at" [0.0] (-0.103429) 1.0e-05,
  .close "at" [7.0] (7.03457) 1.0e-05,
  .push [8.0, 7.92],
  .close "slope" [] (1.022) 1.0e-05,
  .close "at" [0.0] (-0.172) 1.0e-05,
  .close "at" [8.0] (8.004) 1.0e-05,
  .push [9.0, 9.09],
  .close "slope" [] (1.0283) 1.0e-05,
  .close "at" [0.0] (-0.207234) 1.0e-05,
  .close "at" [9.0] (9.04745) 1.0e-05,
  .push [10.0, 9.9],
  .close "slope" [] (1.01087) 1.0e-05,
  .close "at" [0.0] (-0.117391) 1.0e-05,
  .close "at" [10.0] (9.9913) 1.0e-05,
  .push [11.0, 11.11],
  .close "slope" [] (1.03571) 1.0e-05,
  .close "at" [0.0] (-0.334286) 1.0e-05,
  .close "at" [11.0] (11.0586) 1.0e-05,
  .push [12.0, 11.879999999999999],
  .close "slope" [] (1.038) 1.0e-05,
  .close "at" [0.0] (-0.444) 1.0e-05,
  .close "at" [12.0] (12.012) 1.0e-05,
  .push [13.0, 13.13],
  .close "slope" [] (1.04702) 1.0e-05,
  .close "at" [0.0] (-0.535745) 1.0e-05,
  .close "at" [13.0] (13.0755) 1.0e-05,
  .push [14.0, 13.86],
  .close "slope" [] (1.0213) 1.0e-05,
  .close "at" [0.0] (-0.302733) 1.0e-05,
  .close "at" [14.0] (13.9955) 1.0e-05] == []

-- test/interim/regression_suite.cpp:340 double_suite::test_exponential_increase
#guard failures (interimRegression 4) [
  .push [1.0, 1.0],
  .close "slope" [] (0.0) 1.0e-05,
  .close "at" [0.0] (1.0) 1.0e-05,
  .push [10.0, 10.0],
  .close "slope" [] (1.0) 1.0e-05,
  .close "at" [0.0] (0.0) 1.0e-05,
  .push [100.0, 100.0],
  .close "slope" [] (1.0) 1.0e-05,
  .close "at" [0.0] (0.0) 1.0e-05,
  .push [1000.0, 1000.0],
  .close "slope" [] (1.0) 1.0e-05,
  .close "at" [0.0] (0.0) 1.0e-05,
  .push [10000.0, 10000.0],
  .close "slope" [] (1.0) 1.0e-05,
  .close "at" [0.0] (0.0) 1.0e-05,
  .push [100000.0, 100000.0],
  .close "slope" [] (1.0) 1.0e-05,
  .close "at" [0.0] (0.0) 1.0e-05,
  .push [1000000.0, 1000000.0],
  .close "slope" [] (1.0) 1.0e-05,
  .close "at" [0.0] (0.0) 1.0e-05] == []

-- test/interim/regression_suite.cpp:376 double_suite::test_scatter
#guard failures (interimRegression 4) [
  .push [1.0, 1.0],
  .close "slope" [] (0.0) 1.0e-05,
  .close "at" [0.0] (1.0) 1.0e-05,
  .close "at" [1.0] (1.0) 1.0e-05,
  .push [2.0, 2.0],
  .close "slope" [] (1.0) 1.0e-05,
  .close "at" [0.0] (0.0) 1.0e-05,
  .close "at" [2.0] (2.0) 1.0e-05,
  .push [3.0, 1.3],
  .close "slope" [] (0.15) 1.0e-05,
  .close "at" [0.0] (1.13333) 1.0e-05,
  .close "at" [3.0] (1.58333) 1.0e-05,
  .push [4.0, 3.75],
  .close "slope" [] (0.755) 1.0e-05,
  .close "at" [0.0] (0.125) 1.0e-05,
  .close "at" [4.0] (3.145) 1.0e-05,
  .push [5.0, 2.25],
  .close "slope" [] (0.755) 1.0e-05,
  .close "at" [0.0] (-0.535) 1.0e-05,
  .close "at" [5.0] (3.24) 1.0e-05,
  .push [6.0, 4.5],
  .close "slope" [] (0.818617) 1.0e-05,
  .close "at" [0.0] (-0.762943) 1.0e-05,
  .close "at" [6.0] (4.14876) 1.0e-05,
  .push [7.0, 4.5],
  .close "slope" [] (0.883696) 1.0e-05,
  .close "at" [0.0] (-1.35854) 1.0e-05,
  .close "at" [7.0] (4.82733) 1.0e-05] == []

-- test/interim/psquare_quantile_suite.cpp:12 api_suite::test_ctor
#guard failures (interimPSquare 8 [⟨1, 2⟩]) [
  .push [1.0],
  .flag "empty" false] == []

-- test/interim/psquare_quantile_suite.cpp:37 api_suite::test_empty
#guard failures (interimPSquare 8 [⟨1, 2⟩]) [
  .flag "empty" true,
  .push [1.0],
  .flag "empty" false] == []

-- test/interim/psquare_quantile_suite.cpp:45 api_suite::test_clear
#guard failures (interimPSquare 8 [⟨1, 2⟩]) [
  .push [1.0],
  .push [2.0],
  .push [3.0],
  .push [4.0],
  .push [5.0],
  .flag "empty" false,
  .clear,
  .flag "empty" true] == []

-- test/interim/psquare_quantile_suite.cpp:72 double_quartile_suite::test_linear_increase
#guard failures (interimPSquare 8 [⟨1, 2⟩]) [
  .push [1.0],
  .close "get" [0.0] (1.0) 0.0001,
  .close "get" [1.0] (1.0) 0.0001,
  .close "get" [2.0] (1.0) 0.0001,
  .push [2.0],
  .close "get" [0.0] (1.0) 0.0001,
  .close "get" [1.0] (1.5) 0.0001,
  .close "get" [2.0] (2.0) 0.0001,
  .push [3.0],
  .close "get" [0.0] (1.0) 0.0001,
  .close "get" [1.0] (2.0) 0.0001,
  .close "get" [2.0] (3.0) 0.0001,
  .push [4.0],
  .close "get" [0.0] (1.0) 0.0001,
  .close "get" [1.0] (2.5) 0.0001,
  .close "get" [2.0] (4.0) 0.0001,
  .push [5.0],
  .close "get" [0.0] (2.6) 0.0001,
  .close "get" [1.0] (3.5) 0.0001,
  .close "get" [2.0] (4.4) 0.0001,
  .push [6.0],
  .close "get" [0.0] (3.66667) 0.0001,
  .close "get" [1.0] (4.5) 0.0001,
  .close "get" [2.0] (5.33333) 0.0001,
  .push [7.0],
  .close "get" [0.0] (4.42857) 0.0001,
  .close "get" [1.0] (5.5) 0.0001,
  .close "get" [2.0] (6.57143) 0.0001,
  .push [8.0],
  .close "get" [0.0] (5.0) 0.0001,
  .close "get" [1.0] (6.5) 0.0001,
  .close "get" [2.0] (8.0) 0.0001,
  .push [9.0],
  .close "get" [0.0] (6.6) 0.0001,
  .close "get" [1.0] (7.5) 0.0001,
  .close "get" [2.0] (8.4) 0.0001,
  .push [10.0],
  .close "get" [0.0] (7.66667) 0.0001,
  .close "get" [1.0] (8.5) 0.0001,
  .close "get" [2.0] (9.33333) 0.0001,
  .push [11.0],
  .close "get" [0.0] (8.42857) 0.0001,
  .close "get" [1.0] (9.5) 0.0001,
  .close "get" [2.0] (10.5714) 0.0001,
  .push [12.0],
  .close "get" [0.0] (9.0) 0.0001,
  .close "get" [1.0] (10.5) 0.0001,
  .close "get" [2.0] (12.0) 0.0001] == []

-- test/interim/psquare_quantile_suite.cpp:138 double_quartile_suite::test_linear_increase_with_approximation
#guard failures (interimPSquare 12 [⟨1, 2⟩]) [
  .push [1.0],
  .close "get" [0.0] (1.0) 0.0001,
  .close "get" [1.0] (1.0) 0.0001,
  .close "get" [2.0] (1.0) 0.0001,
  .push [2.0],
  .close "get" [0.0] (1.0) 0.0001,
  .close "get" [1.0] (1.5) 0.0001,
  .close "get" [2.0] (2.0) 0.0001,
  .push [3.0],
  .close "get" [0.0] (1.0) 0.0001,
  .close "get" [1.0] (2.0) 0.0001,
  .close "get" [2.0] (3.0) 0.0001,
  .push [4.0],
  .close "get" [0.0] (1.0) 0.0001,
  .close "get" [1.0] (2.5) 0.0001,
  .close "get" [2.0] (4.0) 0.0001,
  .push [5.0],
  .close "get" [0.0] (1.0) 0.0001,
  .close "get" [1.0] (3.0) 0.0001,
  .close "get" [2.0] (5.0) 0.0001,
  .push [6.0],
  .close "get" [0.0] (1.0) 0.0001,
  .close "get" [1.0] (3.0) 0.0001,
  .close "get" [2.0] (6.0) 0.0001,
  .push [7.0],
  .close "get" [0.0] (2.71429) 0.0001,
  .close "get" [1.0] (4.14286) 0.0001,
  .close "get" [2.0] (6.28571) 0.0001,
  .push [8.0],
  .close "get" [0.0] (4.0) 0.0001,
  .close "get" [1.0] (5.25) 0.0001,
  .close "get" [2.0] (7.0) 0.0001,
  .push [9.0],
  .close "get" [0.0] (5.0) 0.0001,
  .close "get" [1.0] (6.33333) 0.0001,
  .close "get" [2.0] (8.0) 0.0001,
  .push [10.0],
  .close "get" [0.0] (5.8) 0.0001,
  .close "get" [1.0] (7.4) 0.0001,
  .close "get" [2.0] (9.2) 0.0001,
  .push [11.0],
  .close "get" [0.0] (6.45455) 0.0001,
  .close "get" [1.0] (8.45455) 0.0001,
  .close "get" [2.0] (10.5455) 0.0001,
  .push [12.0],
  .close "get" [0.0] (7.0) 0.0001,
  .close "get" [1.0] (9.0) 0.0001,
  .close "get" [2.0] (12.0) 0.0001,
  .push [13.0],
  .close "get" [0.0] (8.71429) 0.0001,
  .close "get" [1.0] (10.1429) 0.0001,
  .close "get" [2.0] (12.2857) 0.0001,
  .push [14.0],
  .close "get" [0.0] (10.0) 0.0001,
  .close "get" [1.0] (11.25) 0.0001,
  .close "get" [2.0] (13.0) 0.0001] == []

-- test/interim/psquare_quantile_suite.cpp:218 double_quartile_suite::test_linear_decrease
#guard failures (interimPSquare 12 [⟨1, 2⟩]) [
  .push [100.0],
  .close "get" [0.0] (100.0) 0.0001,
  .close "get" [1.0] (100.0) 0.0001,
  .close "get" [2.0] (100.0) 0.0001,
  .push [99.0],
  .close "get" [0.0] (99.0) 0.0001,
  .close "get" [1.0] (99.5) 0.0001,
  .close "get" [2.0] (100.0) 0.0001,
  .push [98.0],
  .close "get" [0.0] (98.0) 0.0001,
  .close "get" [1.0] (99.0) 0.0001,
  .close "get" [2.0] (100.0) 0.0001,
  .push [97.0],
  .close "get" [0.0] (97.0) 0.0001,
  .close "get" [1.0] (98.5) 0.0001,
  .close "get" [2.0] (100.0) 0.0001,
  .push [96.0],
  .close "get" [0.0] (96.0) 0.0001,
  .close "get" [1.0] (98.0) 0.0001,
  .close "get" [2.0] (100.0) 0.0001,
  .push [95.0],
  .close "get" [0.0] (95.0) 0.0001,
  .close "get" [1.0] (97.0) 0.0001,
  .close "get" [2.0] (100.0) 0.0001,
  .push [94.0],
  .close "get" [0.0] (94.7143) 0.0001,
  .close "get" [1.0] (96.1429) 0.0001,
  .close "get" [2.0] (98.2857) 0.0001,
  .push [93.0],
  .close "get" [0.0] (94.0) 0.0001,
  .close "get" [1.0] (95.25) 0.0001,
  .close "get" [2.0] (97.0) 0.0001,
  .push [92.0],
  .close "get" [0.0] (93.0) 0.0001,
  .close "get" [1.0] (94.3333) 0.0001,
  .close "get" [2.0] (96.0) 0.0001,
  .push [91.0],
  .close "get" [0.0] (91.8) 0.0001,
  .close "get" [1.0] (93.4) 0.0001,
  .close "get" [2.0] (95.2) 0.0001,
  .push [90.0],
  .close "get" [0.0] (90.4545) 0.0001,
  .close "get" [1.0] (92.4545) 0.0001,
  .close "get" [2.0] (94.5455) 0.0001,
  .push [89.0],
  .close "get" [0.0] (89.0) 0.0001,
  .close "get" [1.0] (91.0) 0.0001,
  .close "get" [2.0] (94.0) 0.0001,
  .push [88.0],
  .close "get" [0.0] (88.7143) 0.0001,
  .close "get" [1.0] (90.1429) 0.0001,
  .close "get" [2.0] (92.2857) 0.0001,
  .push [87.0],
  .close "get" [0.0] (88.0) 0.0001,
  .close "get" [1.0] (89.25) 0.0001,
  .close "get" [2.0] (91.0) 0.0001] == []

-- test/interim/psquare_quantile_suite.cpp:298 double_quartile_suite::test_linear_decrease_negative
#guard failures (interimPSquare 12 [⟨1, 2⟩]) [
  .push [-1.0],
  .close "get" [0.0] (-1.0) 0.0001,
  .close "get" [1.0] (-1.0) 0.0001,
  .close "get" [2.0] (-1.0) 0.0001,
  .push [-2.0],
  .close "get" [0.0] (-2.0) 0.0001,
  .close "get" [1.0] (-1.5) 0.0001,
  .close "get" [2.0] (-1.0) 0.0001,
  .push [-3.0],
  .close "get" [0.0] (-3.0) 0.0001,
  .close "get" [1.0] (-2.0) 0.0001,
  .close "get" [2.0] (-1.0) 0.0001,
  .push [-4.0],
  .close "get" [0.0] (-4.0) 0.0001,
  .close "get" [1.0] (-2.5) 0.0001,
  .close "get" [2.0] (-1.0) 0.0001,
  .push [-5.0],
  .close "get" [0.0] (-5.0) 0.0001,
  .close "get" [1.0] (-3.0) 0.0001,
  .close "get" [2.0] (-1.0) 0.0001,
  .push [-6.0],
  .close "get" [0.0] (-6.0) 0.0001,
  .close "get" [1.0] (-4.0) 0.0001,
  .close "get" [2.0] (-1.0) 0.0001,
  .push [-7.0],
  .close "get" [0.0] (-6.28571) 0.0001,
  .close "get" [1.0] (-4.85714) 0.0001,
  .close "get" [2.0] (-2.71429) 0.0001,
  .push [-8.0],
  .close "get" [0.0] (-7.0) 0.0001,
  .close "get" [1.0] (-5.75) 0.0001,
  .close "get" [2.0] (-4.0) 0.0001,
  .push [-9.0],
  .close "get" [0.0] (-8.0) 0.0001,
  .close "get" [1.0] (-6.66667) 0.0001,
  .close "get" [2.0] (-5.0) 0.0001,
  .push [-10.0],
  .close "get" [0.0] (-9.2) 0.0001,
  .close "get" [1.0] (-7.6) 0.0001,
  .close "get" [2.0] (-5.8) 0.0001,
  .push [-11.0],
  .close "get" [0.0] (-10.5455) 0.0001,
  .close "get" [1.0] (-8.54545) 0.0001,
  .close "get" [2.0] (-6.45455) 0.0001,
  .push [-12.0],
  .close "get" [0.0] (-12.0) 0.0001,
  .close "get" [1.0] (-10.0) 0.0001,
  .close "get" [2.0] (-7.0) 0.0001,
  .push [-13.0],
  .close "get" [0.0] (-12.2857) 0.0001,
  .close "get" [1.0] (-10.8571) 0.0001,
  .close "get" [2.0] (-8.71429) 0.0001,
  .push [-14.0],
  .close "get" [0.0] (-13.0) 0.0001,
  .close "get" [1.0] (-11.75) 0.0001,
  .close "get" [2.0] (-10.0) 0.0001] == []

-- test/quantile/psquare_suite.cpp:24 api_suite::test_ctor
#guard failures (quantilePSquare [⟨1, 2⟩]) [
  .push [1.0],
  .flag "empty" false] == []

-- test/quantile/psquare_suite.cpp:49 api_suite::test_empty
#guard failures (quantilePSquare [⟨1, 2⟩]) [
  .flag "empty" true,
  .push [1.0],
  .flag "empty" false] == []

-- test/quantile/psquare_suite.cpp:57 api_suite::test_clear
#guard failures (quantilePSquare [⟨1, 2⟩]) [
  .push [1.0],
  .push [2.0],
  .push [3.0],
  .flag "empty" false,
  .eq "value" [] (2.0),
  .clear,
  .flag "empty" true,
  .eq "value" [] (0.0)] == []

-- test/quantile/psquare_suite.cpp:70 api_suite::test_value
#guard failures (quantilePSquare [⟨1, 4⟩, ⟨1, 2⟩, ⟨3, 4⟩]) [
  .push [1.0],
  .push [2.0],
  .push [3.0],
  .push [4.0],
  .push [5.0],
  .close "value" [0.0, 1.0] (1.0) 1.0e-05,
  .close "value" [1.0, 2.0] (3.0) 1.0e-05,
  .close "value" [3.0, 4.0] (4.0) 1.0e-05,
  .close "value" [1.0, 1.0] (5.0) 1.0e-05,
  .same "value" [] "value" [1.0, 2.0] 1.0e-05,
  .push [6.0],
  .push [7.0],
  .push [8.0],
  .push [9.0],
  .push [10.0],
  .close "value" [0.0, 1.0] (1.0) 1.0e-05,
  .close "value" [1.0, 4.0] (3.0) 1.0e-05,
  .close "value" [1.0, 2.0] (5.0) 1.0e-05,
  .close "value" [3.0, 4.0] (7.0) 1.0e-05,
  .close "value" [1.0, 1.0] (10.0) 1.0e-05] == []

-- test/quantile/psquare_suite.cpp:96 api_suite::test_get
#guard failures (quantilePSquare [⟨1, 4⟩, ⟨1, 2⟩, ⟨3, 4⟩]) [
  .push [1.0],
  .push [2.0],
  .push [3.0],
  .push [4.0],
  .push [5.0],
  .close "get" [0.0] (1.0) 1.0e-05,
  .close "get" [1.0] (2.0) 1.0e-05,
  .close "get" [2.0] (3.0) 1.0e-05,
  .close "get" [3.0] (4.0) 1.0e-05,
  .close "get" [4.0] (5.0) 1.0e-05,
  .same "get" [] "get" [2.0] 1.0e-05,
  .push [6.0],
  .push [7.0],
  .push [8.0],
  .push [9.0],
  .push [10.0],
  .close "get" [0.0] (1.0) 1.0e-05,
  .close "get" [1.0] (3.0) 1.0e-05,
  .close "get" [2.0] (5.0) 1.0e-05,
  .close "get" [3.0] (7.0) 1.0e-05,
  .close "get" [4.0] (10.0) 1.0e-05] == []

-- test/quantile/psquare_suite.cpp:139 paper_example::test_median
#guard failures (quantilePSquare [⟨1, 2⟩]) [
  .params [(1, 0.0), (2, 0.0), (3, 0.0), (4, 0.0), (5, 0.0)] 1.0e-05,
  .push [0.02],
  .close "value" [] (0.02) 1.0e-05,
  .params [(1, 0.02), (2, 0.0), (3, 0.0), (4, 0.0), (5, 0.0)] 1.0e-05,
  .push [0.5],
  .close "value" [] (0.26) 1.0e-05,
  .params [(1, 0.02), (2, 0.5), (3, 0.0), (4, 0.0), (5, 0.0)] 1.0e-05,
  .push [0.74],
  .close "value" [] (0.5) 1.0e-05,
  .params [(1, 0.02), (2, 0.5), (3, 0.74), (4, 0.0), (5, 0.0)] 1.0e-05,
  .push [3.39],
  .close "value" [] (0.62) 1.0e-05,
  .params [(1, 0.02), (2, 0.5), (3, 0.74), (4, 3.39), (5, 0.0)] 1.0e-05,
  .push [0.83],
  .close "value" [] (0.74) 1.0e-05,
  .params [(1, 0.02), (2, 0.5), (3, 0.74), (4, 0.83), (5, 3.39)] 1.0e-05,
  .push [22.37],
  .close "value" [] (0.74) 1.0e-05,
  .params [(1, 0.02), (2, 0.5), (3, 0.74), (5, 8.04), (6, 22.37)] 1.0e-05,
  .push [10.15],
  .close "value" [] (3.25333) 1.0e-05,
  .params [(1, 0.02), (2, 0.5), (4, 3.25333), (6, 14.41222), (7, 22.37)] 1.0e-05,
  .push [15.43],
  .close "value" [] (7.53148) 1.0e-05,
  .params [(1, 0.02), (3, 1.57778), (5, 7.53148), (7, 19.3584), (8, 22.37)] 1.0e-05,
  .push [38.62],
  .close "value" [] (7.53148) 1.0e-05,
  .params [(1, 0.02), (3, 1.57778), (5, 7.53148), (7, 19.3584), (9, 38.62)] 1.0e-05,
  .push [15.92],
  .close "value" [] (11.2658) 1.0e-05,
  .params [(1, 0.02), (4, 4.00514), (6, 11.2658), (7, 13.91597), (10, 38.62)] 1.0e-05,
  .push [34.6],
  .close "value" [] (11.2658) 1.0e-05,
  .params [(1, 0.02), (3, 1.75598), (6, 11.2658), (8, 17.97648), (11, 38.62)] 1.0e-05,
  .push [10.28],
  .close "value" [] (8.34625) 1.0e-05,
  .params [(1, 0.02), (4, 3.3787), (6, 8.34625), (10, 23.63396), (12, 38.62)] 1.0e-05,
  .push [1.47],
  .close "value" [] (8.34625) 1.0e-05,
  .params [(1, 0.02), (4, 1.71698), (7, 8.34625), (10, 17.97648), (13, 38.62)] 1.0e-05,
  .push [0.4],
  .close "value" [] (5.85354) 1.0e-05,
  .params [(1, 0.02), (4, 0.527512), (7, 5.85354), (10, 13.29556), (14, 38.62)] 1.0e-05,
  .push [0.05],
  .close "value" [] (5.85354) 1.0e-05,
  .params [(1, 0.02), (4, 0.527512), (8, 5.85354), (12, 17.97648), (15, 38.62)] 1.0e-05] == []

-- test/quantile/psquare_suite.cpp:247 paper_example::test_lower_quartile
#guard failures (quantilePSquare [⟨1, 4⟩]) [
  .push [0.02],
  .close "value" [] (0.02) 1.0e-05,
  .push [0.5],
  .close "value" [] (0.14) 1.0e-05,
  .push [0.74],
  .close "value" [] (0.26) 1.0e-05,
  .push [3.39],
  .close "value" [] (0.38) 1.0e-05,
  .push [0.83],
  .close "value" [] (0.5) 1.0e-05,
  .params [(1, 0.02), (2, 0.5), (3, 0.74), (4, 0.83), (5, 3.39)] 1.0e-05,
  .push [22.37],
  .close "value" [] (0.74) 1.0e-05,
  .params [(1, 0.02), (2, 0.5), (3, 0.74), (5, 8.04), (6, 22.37)] 1.0e-05,
  .push [10.15],
  .close "value" [] (0.74) 1.0e-05,
  .params [(1, 0.02), (2, 0.5), (3, 0.74), (4, 3.51125), (7, 22.37)] 1.0e-05,
  .push [15.43],
  .close "value" [] (0.74) 1.0e-05,
  .params [(1, 0.02), (2, 0.5), (3, 0.74), (5, 7.05987), (8, 22.37)] 1.0e-05,
  .push [38.62],
  .close "value" [] (0.74) 1.0e-05,
  .params [(1, 0.02), (2, 0.5), (3, 0.74), (6, 12.58486), (9, 38.62)] 1.0e-05,
  .push [15.92],
  .close "value" [] (2.83414) 1.0e-05,
  .params [(1, 0.02), (2, 0.5), (4, 2.83414), (7, 18.27693), (10, 38.62)] 1.0e-05,
  .push [34.6],
  .close "value" [] (2.83414) 1.0e-05,
  .params [(1, 0.02), (3, 1.43805), (4, 2.83414), (8, 23.3892), (11, 38.62)] 1.0e-05,
  .push [10.28],
  .close "value" [] (1.24651) 1.0e-05,
  .params [(1, 0.02), (2, 0.5), (3, 1.24651), (8, 18.92848), (12, 38.62)] 1.0e-05,
  .push [1.47],
  .close "value" [] (2.62173) 1.0e-05,
  .params [(1, 0.02), (2, 0.5), (4, 2.62173), (8, 14.92867), (13, 38.62)] 1.0e-05,
  .push [0.4],
  .close "value" [] (1.13148) 1.0e-05,
  .params [(1, 0.02), (2, 0.054784), (4, 1.13148), (10, 18.8754), (14, 38.62)] 1.0e-05,
  .push [0.05],
  .close "value" [] (0.195157) 1.0e-05,
  .params [(1, 0.02), (2, 0.054784), (4, 0.195157), (10, 14.96996), (15, 38.62)] 1.0e-05] == []

-- test/quantile/psquare_suite.cpp:335 paper_example::test_upper_quartile
#guard failures (quantilePSquare [⟨3, 4⟩]) [
  .push [0.02],
  .close "value" [] (0.02) 1.0e-05,
  .push [0.5],
  .close "value" [] (0.38) 1.0e-05,
  .push [0.74],
  .close "value" [] (0.62) 1.0e-05,
  .push [3.39],
  .close "value" [] (1.4025) 1.0e-05,
  .push [0.83],
  .close "value" [] (0.83) 1.0e-05,
  .params [(1, 0.02), (2, 0.5), (3, 0.74), (4, 0.83), (5, 3.39)] 1.0e-05,
  .push [22.37],
  .close "value" [] (0.74) 1.0e-05,
  .params [(1, 0.02), (2, 0.5), (3, 0.74), (5, 8.04), (6, 22.37)] 1.0e-05,
  .push [10.15],
  .close "value" [] (3.25333) 1.0e-05,
  .params [(1, 0.02), (2, 0.5), (4, 3.25333), (6, 14.41222), (7, 22.37)] 1.0e-05,
  .push [15.43],
  .close "value" [] (7.531481) 1.0e-05,
  .params [(1, 0.02), (3, 1.57778), (5, 7.531481), (7, 19.3584), (8, 22.37)] 1.0e-05,
  .push [38.62],
  .close "value" [] (12.64923) 1.0e-05,
  .params [(1, 0.02), (4, 4.005139), (6, 12.64923), (8, 28.01532), (9, 38.62)] 1.0e-05,
  .push [15.92],
  .close "value" [] (17.67064) 1.0e-05,
  .params [(1, 0.02), (5, 7.72845), (7, 17.67064), (8, 21.0322), (10, 38.62)] 1.0e-05,
  .push [34.6],
  .close "value" [] (17.67064) 1.0e-05,
  .params [(1, 0.02), (4, 4.27935), (7, 17.67064), (9, 25.64428), (11, 38.62)] 1.0e-05,
  .push [10.28],
  .close "value" [] (21.58474) 1.0e-05,
  .params [(1, 0.02), (5, 6.80087), (9, 21.58474), (11, 31.32269), (12, 38.62)] 1.0e-05,
  .push [1.47],
  .close "value" [] (21.58474) 1.0e-05,
  .params [(1, 0.02), (5, 4.40479), (10, 21.58474), (11, 25.64428), (13, 38.62)] 1.0e-05,
  .push [0.4],
  .close "value" [] (17.77648) 1.0e-05,
  .params [(1, 0.02), (5, 2.50422), (10, 17.77648), (13, 31.49365), (14, 38.62)] 1.0e-05,
  .push [0.05],
  .close "value" [] (21.98825) 1.0e-05,
  .params [(1, 0.02), (7, 4.53562), (12, 21.98825), (13, 25.94973), (15, 38.62)] 1.0e-05] == []

-- test/quantile/psquare_suite.cpp:423 paper_example::test_quartiles
#guard failures (quantilePSquare [⟨1, 4⟩, ⟨1, 2⟩, ⟨3, 4⟩]) [
  .params [(1, 0.0), (2, 0.0), (3, 0.0), (4, 0.0), (5, 0.0), (6, 0.0), (7, 0.0), (8, 0.0), (9, 0.0)] 1.0e-05,
  .push [0.02],
  .close "value" [1.0, 4.0] (0.02) 1.0e-05,
  .close "value" [1.0, 2.0] (0.02) 1.0e-05,
  .close "value" [3.0, 4.0] (0.02) 1.0e-05,
  .params [(1, 0.02), (2, 0.0), (3, 0.0), (4, 0.0), (5, 0.0), (6, 0.0), (7, 0.0), (8, 0.0), (9, 0.0)] 1.0e-05,
  .push [0.5],
  .close "value" [1.0, 4.0] (0.14) 1.0e-05,
  .close "value" [1.0, 2.0] (0.26) 1.0e-05,
  .close "value" [3.0, 4.0] (0.38) 1.0e-05,
  .params [(1, 0.02), (2, 0.5), (3, 0.0), (4, 0.0), (5, 0.0), (6, 0.0), (7, 0.0), (8, 0.0), (9, 0.0)] 1.0e-05,
  .push [0.74],
  .close "value" [1.0, 4.0] (0.26) 1.0e-05,
  .close "value" [1.0, 2.0] (0.5) 1.0e-05,
  .close "value" [3.0, 4.0] (0.62) 1.0e-05,
  .params [(1, 0.02), (2, 0.5), (3, 0.74), (4, 0.0), (5, 0.0), (6, 0.0), (7, 0.0), (8, 0.0), (9, 0.0)] 1.0e-05,
  .push [3.39],
  .close "value" [1.0, 4.0] (0.38) 1.0e-05,
  .close "value" [1.0, 2.0] (0.62) 1.0e-05,
  .close "value" [3.0, 4.0] (1.4025) 1.0e-05,
  .params [(1, 0.02), (2, 0.5), (3, 0.74), (4, 3.39), (5, 0.0), (6, 0.0), (7, 0.0), (8, 0.0), (9, 0.0)] 1.0e-05,
  .push [0.83],
  .close "value" [1.0, 4.0] (0.5) 1.0e-05,
  .close "value" [1.0, 2.0] (0.74) 1.0e-05,
  .close "value" [3.0, 4.0] (0.83) 1.0e-05,
  .params [(1, 0.02), (2, 0.5), (3, 0.74), (4, 0.83), (5, 3.39), (6, 0.0), (7, 0.0), (8, 0.0), (9, 0.0)] 1.0e-05,
  .push [22.37],
  .close "value" [1.0, 4.0] (0.56) 1.0e-05,
  .close "value" [1.0, 2.0] (0.785) 1.0e-05,
  .close "value" [3.0, 4.0] (2.75) 1.0e-05,
  .params [(1, 0.02), (2, 0.5), (3, 0.74), (4, 0.83), (5, 3.39), (6, 22.37), (7, 0.0), (8, 0.0), (9, 0.0)] 1.0e-05,
  .push [10.15],
  .close "value" [1.0, 4.0] (0.62) 1.0e-05,
  .close "value" [1.0, 2.0] (0.83) 1.0e-05,
  .close "value" [3.0, 4.0] (6.77) 1.0e-05,
  .params [(1, 0.02), (2, 0.5), (3, 0.74), (4, 0.83), (5, 3.39), (6, 10.15), (7, 22.37), (8, 0.0), (9, 0.0)] 1.0e-05,
  .push [15.43],
  .close "value" [1.0, 4.0] (0.68) 1.0e-05,
  .close "value" [1.0, 2.0] (2.11) 1.0e-05,
  .close "value" [3.0, 4.0] (11.47) 1.0e-05,
  .params [(1, 0.02), (2, 0.5), (3, 0.74), (4, 0.83), (5, 3.39), (6, 10.15), (7, 15.43), (8, 22.37), (9, 0.0)] 1.0e-05,
  .push [38.62],
  .close "value" [1.0, 4.0] (0.74) 1.0e-05,
  .close "value" [1.0, 2.0] (3.39) 1.0e-05,
  .close "value" [3.0, 4.0] (15.43) 1.0e-05,
  .params [(1, 0.02), (2, 0.5), (3, 0.74), (4, 0.83), (5, 3.39), (6, 10.15), (7, 15.43), (8, 22.37), (9, 38.62)] 1.0e-05,
  .push [15.92],
  .close "value" [1.0, 4.0] (0.74) 1.0e-05,
  .close "value" [1.0, 2.0] (3.39) 1.0e-05,
  .close "value" [3.0, 4.0] (19.50333) 1.0e-05,
  .params [(1, 0.02), (2, 0.5), (3, 0.74), (4, 0.83), (5, 3.39), (6, 10.15), (8, 19.50333), (9, 22.37), (10, 38.62)] 1.0e-05,
  .push [34.6],
  .close "value" [1.0, 4.0] (0.74) 1.0e-05,
  .close "value" [1.0, 2.0] (3.39) 1.0e-05,
  .close "value" [3.0, 4.0] (19.50333) 1.0e-05,
  .params [(1, 0.02), (2, 0.5), (3, 0.74), (4, 0.83), (5, 3.39), (7, 15.52111), (8, 19.50333), (10, 28.74222), (11, 38.62)] 1.0e-05,
  .push [10.28],
  .close "value" [1.0, 4.0] (0.74) 1.0e-05,
  .close "value" [1.0, 2.0] (6.69185) 1.0e-05,
  .close "value" [3.0, 4.0] (23.9995) 1.0e-05,
  .params [(1, 0.02), (2, 0.5), (3, 0.74), (4, 0.83), (6, 6.69185), (7, 11.25061), (10, 23.99951), (11, 28.74222), (12, 38.62)] 1.0e-05,
  .push [1.47],
  .close "value" [1.0, 4.0] (0.74) 1.0e-05,
  .close "value" [1.0, 2.0] (6.69185) 1.0e-05,
  .close "value" [3.0, 4.0] (19.63704) 1.0e-05,
  .params [(1, 0.02), (2, 0.5), (3, 0.74), (5, 1.851975), (7, 6.69185), (9, 15.65481), (10, 19.63704), (11, 22.41457), (13, 38.62)] 1.0e-05,
  .push [0.4],
  .close "value" [1.0, 4.0] (1.21699) 1.0e-05,
  .close "value" [1.0, 2.0] (3.75653) 1.0e-05,
  .close "value" [3.0, 4.0] (16.05907) 1.0e-05,
  .params [(1, 0.02), (2, 0.26), (5, 1.21699), (6, 1.851975), (7, 3.75653), (9, 11.68066), (10, 16.05907), (13, 29.28604), (14, 38.62)] 1.0e-05,
  .push [0.05],
  .close "value" [1.0, 4.0] (0.72432) 1.0e-05,
  .close "value" [1.0, 2.0] (3.75653) 1.0e-05,
  .close "value" [3.0, 4.0] (20.40031) 1.0e-05,
  .params [(1, 0.02), (2, 0.1002), (5, 0.72432), (6, 0.84124), (8, 3.75653), (9, 7.57981), (12, 20.40031), (13, 23.21281), (15, 38.62)] 1.0e-05,
  .close "value" [0.0, 1.0] (0.02) 1.0e-05,
  .close "value" [1.0, 4.0] (0.72432) 1.0e-05,
  .close "value" [1.0, 2.0] (3.75653) 1.0e-05,
  .close "value" [3.0, 4.0] (20.40031) 1.0e-05,
  .close "value" [1.0, 1.0] (38.62) 1.0e-05,
  .same "get" [0.0] "value" [0.0, 1.0] 1.0e-05,
  .same "get" [1.0] "value" [1.0, 4.0] 1.0e-05,
  .same "get" [2.0] "value" [1.0, 2.0] 1.0e-05,
  .same "get" [3.0] "value" [3.0, 4.0] 1.0e-05,
  .same "get" [4.0] "value" [1.0, 1.0] 1.0e-05,
  .same "get" [] "value" [1.0, 2.0] 1.0e-05,
  .same "get" [2.0] "value" [] 1.0e-05,
  .same "get" [] "value" [] 1.0e-05] == []

-- test/quantile/psquare_suite.cpp:640 double_quartile_suite::test_linear_increase
#guard failures (quantilePSquare [⟨1, 4⟩, ⟨1, 2⟩, ⟨3, 4⟩]) [
  .push [1.0],
  .close "value" [0.0, 1.0] (1.0) 1.0e-05,
  .close "value" [1.0, 4.0] (1.0) 1.0e-05,
  .close "value" [1.0, 2.0] (1.0) 1.0e-05,
  .close "value" [3.0, 4.0] (1.0) 1.0e-05,
  .close "value" [1.0, 1.0] (1.0) 1.0e-05,
  .push [2.0],
  .close "value" [0.0, 1.0] (1.0) 1.0e-05,
  .close "value" [1.0, 4.0] (1.25) 1.0e-05,
  .close "value" [1.0, 2.0] (1.5) 1.0e-05,
  .close "value" [3.0, 4.0] (1.75) 1.0e-05,
  .close "value" [1.0, 1.0] (2.0) 1.0e-05,
  .push [3.0],
  .close "value" [0.0, 1.0] (1.0) 1.0e-05,
  .close "value" [1.0, 4.0] (1.5) 1.0e-05,
  .close "value" [1.0, 2.0] (2.0) 1.0e-05,
  .close "value" [3.0, 4.0] (2.5) 1.0e-05,
  .close "value" [1.0, 1.0] (3.0) 1.0e-05,
  .push [4.0],
  .close "value" [0.0, 1.0] (1.0) 1.0e-05,
  .close "value" [1.0, 4.0] (1.75) 1.0e-05,
  .close "value" [1.0, 2.0] (2.5) 1.0e-05,
  .close "value" [3.0, 4.0] (3.25) 1.0e-05,
  .close "value" [1.0, 1.0] (4.0) 1.0e-05,
  .push [5.0],
  .close "value" [0.0, 1.0] (1.0) 1.0e-05,
  .close "value" [1.0, 4.0] (2.0) 1.0e-05,
  .close "value" [1.0, 2.0] (3.0) 1.0e-05,
  .close "value" [3.0, 4.0] (4.0) 1.0e-05,
  .close "value" [1.0, 1.0] (5.0) 1.0e-05,
  .push [6.0],
  .close "value" [0.0, 1.0] (1.0) 1.0e-05,
  .close "value" [1.0, 4.0] (2.25) 1.0e-05,
  .close "value" [1.0, 2.0] (3.5) 1.0e-05,
  .close "value" [3.0, 4.0] (4.75) 1.0e-05,
  .close "value" [1.0, 1.0] (6.0) 1.0e-05,
  .push [7.0],
  .close "value" [0.0, 1.0] (1.0) 1.0e-05,
  .close "value" [1.0, 4.0] (2.5) 1.0e-05,
  .close "value" [1.0, 2.0] (4.0) 1.0e-05,
  .close "value" [3.0, 4.0] (5.5) 1.0e-05,
  .close "value" [1.0, 1.0] (7.0) 1.0e-05,
  .push [8.0],
  .close "value" [0.0, 1.0] (1.0) 1.0e-05,
  .close "value" [1.0, 4.0] (2.75) 1.0e-05,
  .close "value" [1.0, 2.0] (4.5) 1.0e-05,
  .close "value" [3.0, 4.0] (6.25) 1.0e-05,
  .close "value" [1.0, 1.0] (8.0) 1.0e-05,
  .push [9.0],
  .close "value" [0.0, 1.0] (1.0) 1.0e-05,
  .close "value" [1.0, 4.0] (3.0) 1.0e-05,
  .close "value" [1.0, 2.0] (5.0) 1.0e-05,
  .close "value" [3.0, 4.0] (7.0) 1.0e-05,
  .close "value" [1.0, 1.0] (9.0) 1.0e-05,
  .push [10.0],
  .close "value" [0.0, 1.0] (1.0) 1.0e-05,
  .close "value" [1.0, 4.0] (3.0) 1.0e-05,
  .close "value" [1.0, 2.0] (5.0) 1.0e-05,
  .close "value" [3.0, 4.0] (7.0) 1.0e-05,
  .close "value" [1.0, 1.0] (10.0) 1.0e-05,
  .push [11.0],
  .close "value" [0.0, 1.0] (1.0) 1.0e-05,
  .close "value" [1.0, 4.0] (3.0) 1.0e-05,
  .close "value" [1.0, 2.0] (5.0) 1.0e-05,
  .close "value" [3.0, 4.0] (8.0) 1.0e-05,
  .close "value" [1.0, 1.0] (11.0) 1.0e-05,
  .push [12.0],
  .close "value" [0.0, 1.0] (1.0) 1.0e-05,
  .close "value" [1.0, 4.0] (3.0) 1.0e-05,
  .close "value" [1.0, 2.0] (5.0) 1.0e-05,
  .close "value" [3.0, 4.0] (9.0) 1.0e-05,
  .close "value" [1.0, 1.0] (12.0) 1.0e-05,
  .push [13.0],
  .close "value" [0.0, 1.0] (1.0) 1.0e-05,
  .close "value" [1.0, 4.0] (3.0) 1.0e-05,
  .close "value" [1.0, 2.0] (6.0) 1.0e-05,
  .close "value" [3.0, 4.0] (10.0) 1.0e-05,
  .close "value" [1.0, 1.0] (13.0) 1.0e-05,
  .push [14.0],
  .close "value" [0.0, 1.0] (1.0) 1.0e-05,
  .close "value" [1.0, 4.0] (3.0) 1.0e-05,
  .close "value" [1.0, 2.0] (7.0) 1.0e-05,
  .close "value" [3.0, 4.0] (11.0) 1.0e-05,
  .close "value" [1.0, 1.0] (14.0) 1.0e-05,
  .push [15.0],
  .close "value" [0.0, 1.0] (1.0) 1.0e-05,
  .close "value" [1.0, 4.0] (4.0) 1.0e-05,
  .close "value" [1.0, 2.0] (8.0) 1.0e-05,
  .close "value" [3.0, 4.0] (12.0) 1.0e-05,
  .close "value" [1.0, 1.0] (15.0) 1.0e-05,
  .push [16.0],
  .close "value" [0.0, 1.0] (1.0) 1.0e-05,
  .close "value" [1.0, 4.0] (5.0) 1.0e-05,
  .close "value" [1.0, 2.0] (9.0) 1.0e-05,
  .close "value" [3.0, 4.0] (13.0) 1.0e-05,
  .close "value" [1.0, 1.0] (16.0) 1.0e-05,
  .push [17.0],
  .close "value" [0.0, 1.0] (1.0) 1.0e-05,
  .close "value" [1.0, 4.0] (5.0) 1.0e-05,
  .close "value" [1.0, 2.0] (9.0) 1.0e-05,
  .close "value" [3.0, 4.0] (13.0) 1.0e-05,
  .close "value" [1.0, 1.0] (17.0) 1.0e-05,
  .push [18.0],
  .close "value" [0.0, 1.0] (1.0) 1.0e-05,
  .close "value" [1.0, 4.0] (6.0) 1.0e-05,
  .close "value" [1.0, 2.0] (10.0) 1.0e-05,
  .close "value" [3.0, 4.0] (14.0) 1.0e-05,
  .close "value" [1.0, 1.0] (18.0) 1.0e-05,
  .push [19.0],
  .close "value" [0.0, 1.0] (1.0) 1.0e-05,
  .close "value" [1.0, 4.0] (5.0) 1.0e-05,
  .close "value" [1.0, 2.0] (10.0) 1.0e-05,
  .close "value" [3.0, 4.0] (15.0) 1.0e-05,
  .close "value" [1.0, 1.0] (19.0) 1.0e-05,
  .push [20.0],
  .close "value" [0.0, 1.0] (1.0) 1.0e-05,
  .close "value" [1.0, 4.0] (6.0) 1.0e-05,
  .close "value" [1.0, 2.0] (11.0) 1.0e-05,
  .close "value" [3.0, 4.0] (16.0) 1.0e-05,
  .close "value" [1.0, 1.0] (20.0) 1.0e-05,
  .push [21.0],
  .close "value" [0.0, 1.0] (1.0) 1.0e-05,
  .close "value" [1.0, 4.0] (6.0) 1.0e-05,
  .close "value" [1.0, 2.0] (11.0) 1.0e-05,
  .close "value" [3.0, 4.0] (16.0) 1.0e-05,
  .close "value" [1.0, 1.0] (21.0) 1.0e-05] == []

-- test/quantile/psquare_suite.cpp:807 double_90_suite::test_empty
#guard failures (quantilePSquare [⟨9, 10⟩]) [
  .eq "value" [] (0.0)] == []

-- test/quantile/psquare_suite.cpp:813 double_90_suite::test_linear_increase
#guard failures (quantilePSquare [⟨9, 10⟩]) [
  .push [1.0],
  .eq "value" [] (1.0),
  .push [2.0],
  .eq "value" [] (1.9),
  .push [3.0],
  .eq "value" [] (2.8),
  .push [4.0],
  .eq "value" [] (3.7),
  .push [5.0],
  .eq "value" [] (4.6),
  .push [6.0],
  .eq "value" [] (3.0),
  .push [7.0],
  .eq "value" [] (4.0),
  .push [8.0],
  .eq "value" [] (5.0),
  .push [9.0],
  .eq "value" [] (6.0),
  .push [10.0],
  .eq "value" [] (7.0),
  .push [11.0],
  .eq "value" [] (8.0)] == []

-- test/quantile/psquare_suite.cpp:856 double_approx_suite::test_count_100
#guard failures (quantilePSquare [⟨1, 2⟩]) [
  .setParams [(20, -2.0), (40, 0.5), (60, 1.0), (80, 1.5), (100, 4.0)],
  .push [1000.0],
  .close "value" [] (1.023782) 1.0e-05,
  .params [(20, -2.0), (41, 0.5725), (61, 1.023782), (81, 25.28634), (101, 1000.0)] 1.0e-05] == []

-- test/impulse/finite_suite.cpp:22 double_1_suite::test_half
#guard failures (impulseFinite [0.5]) [
  .eq "capacity" [] (1.0),
  .flag "empty" true,
  .flag "full" false,
  .eq "size" [] (0.0),
  .close "value" [] (0.0) 1.0e-05,
  .push [1.0],
  .flag "empty" false,
  .flag "full" true,
  .eq "size" [] (1.0),
  .close "value" [] (0.5) 1.0e-05,
  .push [3.0],
  .eq "size" [] (1.0),
  .close "value" [] (1.5) 1.0e-05,
  .push [5.0],
  .close "value" [] (2.5) 1.0e-05] == []

-- test/impulse/finite_suite.cpp:43 double_1_suite::test_quarter
#guard failures (impulseFinite [0.25]) [
  .eq "value" [] (0.0),
  .push [1.0],
  .close "value" [] (0.25) 1.0e-05,
  .push [1.0],
  .close "value" [] (0.25) 1.0e-05,
  .push [2.0],
  .close "value" [] (0.5) 1.0e-05,
  .push [3.0],
  .close "value" [] (0.75) 1.0e-05] == []

-- test/impulse/finite_suite.cpp:69 double_2_suite::test_half_half
#guard failures (impulseFinite [0.5, 0.5]) [
  .eq "capacity" [] (2.0),
  .flag "empty" true,
  .flag "full" false,
  .eq "size" [] (0.0),
  .eq "value" [] (0.0),
  .push [1.0],
  .flag "empty" false,
  .flag "full" false,
  .eq "size" [] (1.0),
  .close "value" [] (0.5) 1.0e-05,
  .push [3.0],
  .flag "empty" false,
  .flag "full" true,
  .eq "size" [] (2.0),
  .close "value" [] (2.0) 1.0e-05,
  .push [6.0],
  .eq "size" [] (2.0),
  .close "value" [] (4.5) 1.0e-05] == []

-- test/impulse/finite_suite.cpp:93 double_2_suite::test_half_quarter
#guard failures (impulseFinite [0.5, 0.25]) [
  .push [1.0],
  .close "value" [] (0.5) 1.0e-05,
  .push [3.0],
  .close "value" [] (1.75) 1.0e-05,
  .push [6.0],
  .close "value" [] (3.75) 1.0e-05,
  .push [9.0],
  .close "value" [] (6.0) 1.0e-05] == []

-- test/impulse/infinite_suite.cpp:23 api_suite::test_empty
#guard failures (impulseInfinite [1.0] [1.0]) [
  .flag "empty" true,
  .push [1.0],
  .flag "empty" false] == []

-- test/impulse/infinite_suite.cpp:31 api_suite::test_value
#guard failures (impulseInfinite [1.0] [1.0]) [
  .flag "empty" true,
  .eq "value" [] (0.0)] == []

-- test/impulse/infinite_suite.cpp:51 double_1_1_suite::test_input_one_output_one
#guard failures (impulseInfinite [1.0] [1.0]) [
  .push [1.0],
  .record,
  .close "value" [] (1.0) 1.0e-05,
  .push [2.0],
  .record,
  .closeWith "value" (fun h => 2.0 * 1.0 - h[0]! * 1.0) 1.0e-05,
  .push [3.0],
  .record,
  .closeWith "value" (fun h => 3.0 * 1.0 - h[1]! * 1.0) 1.0e-05] == []

-- test/impulse/infinite_suite.cpp:67 double_1_1_suite::test_input_one_output_one_scale_half
#guard failures (impulseInfinite [1.0] [1.0] 2.0) [
  .push [1.0],
  .record,
  .close "value" [] (0.5) 1.0e-05,
  .push [2.0],
  .record,
  .closeWith "value" (fun h => (2.0 * 1.0 - h[0]!) / (2.0)) 1.0e-05,
  .push [3.0],
  .record,
  .closeWith "value" (fun h => (3.0 * 1.0 - h[1]!) / (2.0)) 1.0e-05] == []

-- test/impulse/infinite_suite.cpp:84 double_1_1_suite::test_input_half_output_half
#guard failures (impulseInfinite [0.5] [0.5]) [
  .push [1.0],
  .record,
  .close "value" [] (0.5) 1.0e-05,
  .push [2.0],
  .record,
  .closeWith "value" (fun h => 2.0 * 0.5 - h[0]! * 0.5) 1.0e-05,
  .push [3.0],
  .record,
  .closeWith "value" (fun h => 3.0 * 0.5 - h[1]! * 0.5) 1.0e-05] == []

-- test/impulse/infinite_suite.cpp:100 double_1_1_suite::test_input_half_output_quarter
#guard failures (impulseInfinite [0.5] [0.25]) [
  .push [1.0],
  .record,
  .close "value" [] (0.5) 1.0e-05,
  .push [2.0],
  .record,
  .closeWith "value" (fun h => 2.0 * 0.5 - h[0]! * 0.25) 1.0e-05,
  .push [3.0],
  .record,
  .closeWith "value" (fun h => 3.0 * 0.5 - h[1]! * 0.25) 1.0e-05] == []

-- test/impulse/infinite_suite.cpp:131 double_1_2_suite::test_input_half_output_half_half
#guard failures (impulseInfinite [0.5] [0.5, 0.5]) [
  .push [1.0],
  .record,
  .close "value" [] (0.5) 1.0e-05,
  .push [2.0],
  .record,
  .closeWith "value" (fun h => 2.0 * 0.5 - h[0]! * 0.5) 1.0e-05,
  .push [3.0],
  .record,
  .closeWith "value" (fun h => 3.0 * 0.5 - h[1]! * 0.5 - h[0]! * 0.5) 1.0e-05,
  .push [4.0],
  .record,
  .closeWith "value" (fun h => 4.0 * 0.5 - h[2]! * 0.5 - h[1]! * 0.5) 1.0e-05] == []

-- test/impulse/infinite_suite.cpp:150 double_1_2_suite::test_input_half_output_half_quarter
#guard failures (impulseInfinite [0.5] [0.5, 0.25]) [
  .push [1.0],
  .record,
  .close "value" [] (0.5) 1.0e-05,
  .push [2.0],
  .record,
  .closeWith "value" (fun h => 2.0 * 0.5 - h[0]! * 0.5) 1.0e-05,
  .push [3.0],
  .record,
  .closeWith "value" (fun h => 3.0 * 0.5 - h[1]! * 0.5 - h[0]! * 0.25) 1.0e-05,
  .push [4.0],
  .record,
  .closeWith "value" (fun h => 4.0 * 0.5 - h[2]! * 0.5 - h[1]! * 0.25) 1.0e-05] == []

-- test/impulse/infinite_suite.cpp:182 double_2_1_suite::test_input_half_half_output_half
#guard failures (impulseInfinite [0.5, 0.5] [0.5]) [
  .push [1.0],
  .record,
  .close "value" [] (0.5) 1.0e-05,
  .push [2.0],
  .record,
  .closeWith "value" (fun h => 2.0 * 0.5 + 1.0 * 0.5 - h[0]! * 0.5) 1.0e-05,
  .push [3.0],
  .record,
  .closeWith "value" (fun h => 3.0 * 0.5 + 2.0 * 0.5 - h[1]! * 0.5) 1.0e-05,
  .push [4.0],
  .record,
  .closeWith "value" (fun h => 4.0 * 0.5 + 3.0 * 0.5 - h[2]! * 0.5) 1.0e-05] == []

-- test/impulse/infinite_suite.cpp:201 double_2_1_suite::test_input_half_quarter_output_half
#guard failures (impulseInfinite [0.5, 0.25] [0.5]) [
  .push [1.0],
  .record,
  .close "value" [] (0.5) 1.0e-05,
  .push [2.0],
  .record,
  .closeWith "value" (fun h => 2.0 * 0.5 + 1.0 * 0.25 - h[0]! * 0.5) 1.0e-05,
  .push [3.0],
  .record,
  .closeWith "value" (fun h => 3.0 * 0.5 + 2.0 * 0.25 - h[1]! * 0.5) 1.0e-05,
  .push [4.0],
  .record,
  .closeWith "value" (fun h => 4.0 * 0.5 + 3.0 * 0.25 - h[2]! * 0.5) 1.0e-05] == []

-- test/impulse/infinite_suite.cpp:233 double_3_3_suite::test_first
#guard failures (impulseInfinite [1.0, 0.2, 0.3] [0.1, 0.5, 0.25]) [
  .push [10.0],
  .record,
  .close "value" [] (10.0) 1.0e-05,
  .push [5.0],
  .record,
  .closeWith "value" (fun h => 5.0 * 1.0 + 10.0 * 0.2 - 0.1 * h[0]!) 1.0e-05,
  .push [20.0],
  .record,
  .closeWith "value" (fun h => 20.0 * 1.0 + 5.0 * 0.2 + 10.0 * 0.3 - 0.1 * h[1]! - 0.5 * h[0]!) 1.0e-05,
  .push [-10.0],
  .record,
  .closeWith "value" (fun h => -10.0 * 1.0 + 20.0 * 0.2 + 5.0 * 0.3 - 0.1 * h[2]! - 0.5 * h[1]! - 0.25 * h[0]!) 1.0e-05,
  .push [-5.0],
  .record,
  .closeWith "value" (fun h => -5.0 * 1.0 - 10.0 * 0.2 + 20.0 * 0.3 - 0.1 * h[3]! - 0.5 * h[2]! - 0.25 * h[1]!) 1.0e-05] == []

end Verif.Tests
